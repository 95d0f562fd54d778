import Verif.Model.WakeModels
import Verif.Model.WindDir
import Mathlib.Analysis.Complex.Trigonometric
/-
Model of the induction (blockage) wake models, foxes/models/wake_models/induction/*.py, for one state, one wake causing turbine and one point:
`x` is the downstream wake coordinate and `r` the radial distance (`np.linalg.norm(wake_coos[..., 1:3])`). Real numbers replace doubles. The result is
the delta that is passed to the superposition model (`none`: the point is not selected). `a` is the axial induction model.
-/
namespace Foxes.Induction
open Foxes.WakeModels Foxes.WindDir

noncomputable section
open scoped Classical

/-- round to the nearest integer, halves to the even one (numpy `rint`) -/
def halfEven (y : ℝ) : ℤ :=
  let n := ⌊y + 1 / 2⌋
  if y + 1 / 2 = n ∧ n % 2 = 1 then n - 1 else n

/-- `np.round(x, 12)` (rathmann.py:180, self_similar.py:211, vortex_sheet.py:153, rankine_half_body.py:187) -/
def np12 (x : ℝ) : ℝ := halfEven (x * 10 ^ 12) / 10 ^ 12

/-- `mu` (rathmann.py:183-185), `_mu` (self_similar.py:130-132) -/
def mu (x : ℝ) : ℝ := 1 + x / √(1 + x ^ 2)

/-- the selections of `Rathmann.contribute` (rathmann.py:198-236) and `SelfSimilar.contribute` (self_similar.py:214-253): upstream the negative
blockage, downstream the blockage mirrored in the rotor plane, not behind the rotor. `f` is the blockage as function of `x_R`, `r_R` -/
def twoSided (pre : Bool) (ct xR rR : ℝ) (f : ℝ → ℝ → Option ℝ) : Option (Option ℝ) :=
  if 1e-8 < ct ∧ xR ≤ 0 then some ((f xR rR).map fun b => -b)
  else if pre = false ∧ 1e-8 < ct ∧ 0 < xR ∧ 1 < rR then some (f (-xR) rR)
  else none

/-- `G` (rathmann.py:187-196); `none` is NaN (0 / 0) -/
def ratG (x r : ℝ) : Option ℝ :=
  let q := √((x ^ 2 + (r - 1) ^ 2) * (x ^ 2 + (r + 1) ^ 2))
  if q = 0 then none
  else
    let sin2a := 2 * x / q
    let sina := √(0.5 * (1 - √(1 - sin2a ^ 2)))
    let sinb := 1 / √(x ^ 2 + r ^ 2 + 1)
    some (sina * sinb * (1 + x ^ 2))

/-- `Rathmann.contribute` (rathmann.py:118-236); inner `none` is NaN -/
def rathmann (a : ℝ → ℝ) (pre : Bool) (D ct x r : ℝ) : Option (Option ℝ) :=
  let R := 0.5 * D
  twoSided pre ct (np12 (x / R)) (r / R) fun xr rr => (ratG xr rr).map fun g => a ct * mu xr * g

/-- `_rad_fn` (self_similar.py:147-149) -/
def radFn (rHalf : ℝ) (r : ℝ) : ℝ := (1 / Real.cosh (√2 * r / rHalf)) ^ ((8 : ℝ) / 9)

/-- `SelfSimilar.contribute` (self_similar.py:151-256) with the methods `_a0` and `_r_half` -/
def selfSim (a0 : ℝ → ℝ → ℝ) (rHalf : ℝ → ℝ) (pre : Bool) (D ct x r : ℝ) : Option (Option ℝ) :=
  let R := 0.5 * D
  twoSided pre ct (np12 (x / R)) (r / R) fun xr rr => some (a0 ct xr * mu xr * radFn (rHalf xr) rr)

/-- `SelfSimilar._a0` (self_similar.py:134-136) and `SelfSimilar._r_half` (self_similar.py:142-144) -/
def selfSimilar (a : ℝ → ℝ) (gamma : ℝ) (pre : Bool) (D ct x r : ℝ) : Option (Option ℝ) :=
  selfSim (fun ct _ => a (gamma * ct)) (fun x => √(0.587 * (1.32 + x ^ 2))) pre D ct x r

/-- `far_gamma` (self_similar2020.py:38-42) -/
def farGamma (ct : ℝ) : ℝ := -0.06489 * Real.sin ((ct - 0.4911) / 0.1577) + 1.116

/-- `near_gamma` (self_similar2020.py:44-48) -/
def nearGamma (ct : ℝ) : ℝ := -1.381 * ct ^ 3 + 2.627 * ct ^ 2 + -1.524 * ct + 1.336

/-- `gamma` (self_similar2020.py:35-50) -/
def gamma2020 (ct x : ℝ) : ℝ :=
  let xNew := min (max (-1 * |x|) (-6)) (-1)
  let c := (mu xNew - mu (-1)) / (mu (-6) - mu (-1))
  c * farGamma ct + (1 - c) * nearGamma ct

/-- `SelfSimilar2020` (self_similar2020.py:32-56) -/
def selfSimilar2020 (a : ℝ → ℝ) (pre : Bool) (D ct x r : ℝ) : Option (Option ℝ) :=
  selfSim (fun ct x => a (gamma2020 ct x * ct)) (fun x => -0.672 * x + 0.4897) pre D ct x r

/-- `VortexSheet.contribute` (vortex_sheet.py:152-227) -/
def vortexSheet (a : ℝ → ℝ) (pre : Bool) (D ct x r : ℝ) : Option ℝ :=
  let x := np12 x
  let rSph := √(r ^ 2 + x ^ 2)
  let xi := rSph / (D / 2)
  let blockage := a ct * (1 + -xi / √(1 + xi ^ 2))
  if 1e-8 < ct ∧ x ≤ 0 then some (-blockage)
  else if pre = false ∧ 1e-8 < ct ∧ 0 < x ∧ D / 2 < r then some blockage
  else none

/-- `m` (rankine_half_body.py:184); `ws` is the `REWS` entry of the turbine -/
def rankM (a : ℝ → ℝ) (ws D ct : ℝ) : ℝ := 2 * ws * a ct * (D / 2) ^ 2

/-- `xs` (rankine_half_body.py:198) -/
def rankXs (m ws : ℝ) : ℝ := -√(m / (4 * ws + 1e-15))

/-- `RHB_shape` (rankine_half_body.py:188-195) -/
def rankShape (m ws x r : ℝ) : ℝ :=
  let rSph := √(r ^ 2 + x ^ 2)
  let theta := arctan2 r x
  Real.cos theta - 2 / (m + 1e-15) * ws * (rSph * Real.sin theta) ^ 2

/-- `RankineHalfBody.contribute` (rankine_half_body.py:147-222) at the point (x, y, z): what is added to `U` and `V` -/
def rankine (a : ℝ → ℝ) (ws D ct x y z : ℝ) : ℝ × ℝ :=
  let m := rankM a ws D ct
  let xr := np12 x
  let r := √(y ^ 2 + z ^ 2)
  let shape := rankShape m ws xr r
  let xs := rankXs m ws
  let outside := if 1e-8 < ct ∧ (shape < -1 ∨ xr < xs) then
      let f := m / (4 * √(x ^ 2 + y ^ 2 + z ^ 2) ^ 3)
      (f * x, f * y)
    else (0, 0)
  let inside := if 1e-8 < ct ∧ -1 ≤ shape ∧ xs ≤ xr ∧ xr ≤ 0 then
      let f := m / (4 * √(xs ^ 2 + 0 ^ 2 + 0 ^ 2) ^ 3)
      f * xs
    else 0
  (outside.1 + inside, outside.2)

/-- `RankineHalfBody.finalize_wake_deltas` (rankine_half_body.py:250-273): the deltas of `WS` and `WD` -/
def rankFinal (ws wd u v : ℝ) : ℝ × ℝ :=
  let nx := wd2uv wd 1
  let ny := (-nx.2, nx.1)
  let w := (nx.1 * ws + (u * nx.1 + v * ny.1), nx.2 * ws + (u * nx.2 + v * ny.2))
  (√(w.1 ^ 2 + w.2 ^ 2) - ws, deltaWd wd (uv2wd w))

end

end Foxes.Induction
