import Verif.Model.WakeModels
import Mathlib.Analysis.SpecialFunctions.Exp
import Mathlib.Analysis.SpecialFunctions.Log.Basic
import Mathlib.Analysis.SpecialFunctions.Trigonometric.Basic
/-
Model of foxes/models/wake_models/wind/bastankhah16.py: the Bastankhah & Porté-Agel 2016 wake of yawed turbines, for one state, one wake causing
turbine and one target. Real numbers replace doubles, the yaw misalignment is in (-90°, 90°). `a` is the axial induction model.
-/
namespace Foxes.Bast16
noncomputable section
open scoped Classical

/-- what `calc_data` reads for the wake causing turbine (bastankhah16.py:163-243): induction model, model parameters, rotor diameter, thrust
coefficient, turbulence intensity, wake growth and yaw misalignment (radians) -/
structure Inp where
  a : ℝ → ℝ
  alpha : ℝ
  beta : ℝ
  D : ℝ
  ct : ℝ
  ti : ℝ
  k : ℝ
  gamma : ℝ

/-- `theta` (bastankhah16.py:246-248) -/
def theta (i : Inp) : ℝ := 0.3 * i.gamma / Real.cos i.gamma * (2 * i.a (i.ct * Real.cos i.gamma))

/-- `x0`, the onset of the far wake (bastankhah16.py:251-252) -/
def x0 (i : Inp) : ℝ := i.D * Real.cos i.gamma * (2 - 2 * i.a i.ct) / (√2 * (4 * i.alpha * i.ti + i.beta * (2 * i.a i.ct)))

/-- `sigma_y0`, `sigma_z0`, `sigma_y`, `sigma_z` (bastankhah16.py:256-259) -/
def sigY0 (i : Inp) : ℝ := i.D * Real.cos i.gamma / √8
/-- (bastankhah16.py:257) -/
def sigZ0 (i : Inp) : ℝ := i.D / √8
/-- (bastankhah16.py:258) -/
def sigY (i : Inp) (x : ℝ) : ℝ := i.k * (x - x0 i) + sigY0 i
/-- (bastankhah16.py:259) -/
def sigZ (i : Inp) (x : ℝ) : ℝ := i.k * (x - x0 i) + sigZ0 i

/-- `r_pc` (bastankhah16.py:272-280): radius of the potential core; `none` is NaN: the root of a negative number, or `inf - inf` if `u0 = 0` -/
def rPc (i : Inp) (x : ℝ) : Option ℝ :=
  let uR := 0.5 * i.ct * Real.cos i.gamma / (2 * i.a (i.ct * Real.cos i.gamma))
  let u0 := 1 - 2 * i.a i.ct
  let d := x / x0 i
  if u0 = 0 ∨ uR / u0 < 0 then none
  else
    let r0 := 0.5 * i.D * √(uR / u0)
    some (r0 - d * r0)

/-- near wake: amplitude (bastankhah16.py:275, 286) times the radial factor (bastankhah16.py:590-600); the comparison `r > r_pc` is false for NaN -/
def nearDelta (i : Inp) (x y z : ℝ) : ℝ :=
  let r := √(y ^ 2 + z ^ 2)
  let s := x / x0 i * sigY0 i
  let rf := match rPc i x with
    | none => 1
    | some p => if p < r then Real.exp (-0.5 * ((r - p) / s) ^ 2) else 1
  (1 - 2 * i.a i.ct - 1) * rf

/-- `ampl` of the far wake (bastankhah16.py:322-323) -/
def amplFar (i : Inp) (x : ℝ) : ℝ :=
  max (-2 * i.a (i.ct * Real.cos i.gamma * i.D ^ 2 / (8 * sigY i x * sigZ i x))) (-1)

/-- far wake (bastankhah16.py:603-622) -/
def farDelta (i : Inp) (x y z : ℝ) : ℝ :=
  amplFar i x * (Real.exp (-0.5 * (y / sigY i x) ^ 2) * Real.exp (-0.5 * (z / sigZ i x) ^ 2))

/-- `Bastankhah2016.calc_wakes_x_yz` (bastankhah16.py:571-624): the delta of `WS` passed to the superposition model, `none`: not selected
(bastankhah16.py:184) -/
def delta (i : Inp) (x y z : ℝ) : Option ℝ :=
  if 1e-8 < x ∧ 1e-8 < i.ct then some (if x < x0 i then nearDelta i x y z else farDelta i x y z) else none

/-- `delta` of the far wake (bastankhah16.py:307-319) -/
def deflFar (i : Inp) (x : ℝ) : ℝ :=
  let sqct := √i.ct
  let sqsd := √(8 * sigY i x * sigZ i x / (Real.cos i.gamma * i.D ^ 2))
  theta i * x0 i + (i.D * theta i / 14.7 * √(Real.cos i.gamma / (i.ct * i.k ^ 2)) * (2.9 + 1.3 * (1 - 2 * i.a i.ct) - i.ct)
    * Real.log (((1.6 + sqct) * (1.6 * sqsd - sqct)) / ((1.6 - sqct) * (1.6 * sqsd + sqct))))

/-- the deflection `ydef` that `YawedWakes._update_y` subtracts from `y` (yawed_wakes.py:199-228, bastankhah16.py:285, 307-319); targets that are not
selected are not deflected -/
def deflection (i : Inp) (x : ℝ) : ℝ :=
  if 1e-8 < x ∧ 1e-8 < i.ct then (if x < x0 i then theta i * x else deflFar i x) else 0

/-! ### The data stored in `mdata` -/

/-- the `CHECK` entry (bastankhah16.py:156-161, 355-360): first state, number of states, downwind index, hash of the x values -/
structure Check where
  i0 : ℕ
  n : ℕ
  downwind : ℕ
  hash : ℕ
deriving DecidableEq

/-- `Bastankhah2016.calc_wakes_x_yz` (bastankhah16.py:544-572): the stored data are used if the `CHECK` entries agree (`has_data`,
bastankhah16.py:335-361), otherwise the data of this model are calculated and stored (`calc_data`, bastankhah16.py:331-333). `calcData` is what
`calc_data` calculates for these x values. Returns the data used and the new `mdata` entry -/
def useData {α : Type} (store : Option (Check × α)) (calcData : Check → α) (c : Check) : α × Option (Check × α) :=
  match store with
  | some (c', d) => if c' = c then (d, store) else (calcData c, some (c, calcData c))
  | none => (calcData c, some (c, calcData c))

/-- `YawedWakes._update_y` (yawed_wakes.py:196): always calculates -/
def frameData {α : Type} (calcData : Check → α) (c : Check) : α × Option (Check × α) := (calcData c, some (c, calcData c))

/-- a sequence of evaluations during one chunk: by the frame (`true`) or by a wake model; each with what its model calculates. Returns the data
used by each of them -/
def evaluations {α : Type} : Option (Check × α) → List (Bool × (Check → α) × Check) → List α
  | _, [] => []
  | store, (frame, f, c) :: l =>
    let r := if frame then frameData f c else useData store f c
    r.1 :: evaluations r.2 l

end

end Foxes.Bast16
