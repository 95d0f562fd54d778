import Mathlib.Analysis.SpecialFunctions.Pow.Real
/-
Model of the axial induction models and of single wake models, over the real numbers:
foxes/models/axial_induction/*.py, foxes/models/wake_models/{top_hat,gaussian}.py, wind/{jensen,bastankhah14,turbopark}.py,
ti/{crespo_hernandez,iec_ti}.py.
-/
namespace Foxes.WakeModels

noncomputable section

/-- `BetzAxialInduction.ct2a` (axial_induction/betz.py:48) -/
def betz (ctMax ct : ℝ) : ℝ := 0.5 * (1 - √(1 - min ct ctMax))

/-- `MadsenAxialInduction.ct2a` (axial_induction/madsen.py:63) -/
def madsen (k1 k2 k3 ct : ℝ) : ℝ := k1 * ct + k2 * ct ^ 2 + k3 * ct ^ 3

/-- the default coefficients (axial_induction/madsen.py:29) -/
def madsenDefault : ℝ → ℝ := madsen 0.2460 0.0586 0.0883

/-- `TopHatWakeModel.calc_wakes_x_r` (wake_models/top_hat.py:198-227) for one state-target: `rs` are the radial distances of
its points; `none`: the target is not in `st_sel`. -/
def topHat (wakeR : ℝ → ℝ → ℝ) (centre : ℝ → ℝ → ℝ → ℝ) (x ct : ℝ) (rs : List ℝ) : Option (List ℝ) :=
  let wr := wakeR x ct
  if 1e-8 < x ∧ 1e-8 < ct ∧ ∃ r ∈ rs, r < wr then
    some (rs.map fun r => if r < wr then centre x wr ct else 0)
  else none

/-- `JensenWake.calc_wake_radius` (wind/jensen.py:103) -/
def jensenRadius (D k x : ℝ) : ℝ := D / 2 + k * x

/-- `JensenWake.calc_centreline` (wind/jensen.py:150-167); `a` the induction model -/
def jensenCentre (a : ℝ → ℝ) (D wr ct : ℝ) : ℝ := -((D / 2 / wr) ^ 2) * (2 * a ct)

/-- Jensen wake at the points of one target -/
def jensen (a : ℝ → ℝ) (D k x ct : ℝ) (rs : List ℝ) : Option (List ℝ) :=
  topHat (fun x _ => jensenRadius D k x) (fun _ wr ct => jensenCentre a D wr ct) x ct rs

/-- `GaussianWakeModel.calc_wakes_x_r` (wake_models/gaussian.py:97-106) for one selected target -/
def gauss (ampld sigma r : ℝ) : ℝ := ampld * Real.exp (-0.5 * (r / sigma) ^ 2)

/-- `beta` (wind/bastankhah14.py:178-179, wind/turbopark.py:209-210) -/
def beta (a : ℝ) : ℝ := (1 - a) / (1 - 2 * a)

/-- `sigma` of `Bastankhah2014` (wind/bastankhah14.py:180) -/
def bastSigma (a : ℝ → ℝ) (sb D k x ct : ℝ) : ℝ := k * x + sb * √(beta (a ct)) * D

/-- the amplitude (wind/bastankhah14.py:184-185, wind/turbopark.py:242-243) -/
def amplitude (a : ℝ → ℝ) (D sigma ct : ℝ) : ℝ := max (-2 * a (ct / (8 * (sigma / D) ^ 2))) (-1)

/-- `Bastankhah2014` at the points of one target (wind/bastankhah14.py:146-194, gaussian.py:100-106) -/
def bastankhah (a : ℝ → ℝ) (sb D k x ct : ℝ) (rs : List ℝ) : Option (List ℝ) :=
  if 1e-8 < x ∧ 1e-8 < ct then
    let sigma := bastSigma a sb D k x ct
    some (rs.map (gauss (amplitude a D sigma ct) sigma))
  else none

/-- `sigma` of `TurbOParkWake` (wind/turbopark.py:209-232) -/
def turboSigma (a : ℝ → ℝ) (sb c1 c2 D k ati x ct : ℝ) : ℝ :=
  let epsilon := sb * √(beta (a ct))
  let alpha := c1 * ati
  let bt := c2 * ati / √ct
  D * (epsilon + k / bt * (√((alpha + bt * x / D) ^ 2 + 1) - √(1 + alpha ^ 2)
    - Real.log ((√((alpha + bt * x / D) ^ 2 + 1) + 1) * alpha / ((√(1 + alpha ^ 2) + 1) * (alpha + bt * x / D)))))

/-- `TurbOParkWake` at the points of one target -/
def turbopark (a : ℝ → ℝ) (sb c1 c2 D k ati x ct : ℝ) (rs : List ℝ) : Option (List ℝ) :=
  if 1e-8 < x ∧ 1e-8 < ct then
    let sigma := turboSigma a sb c1 c2 D k ati x ct
    some (rs.map (gauss (amplitude a D sigma ct) sigma))
  else none

/-- parameters of the Crespo-Hernandez TI wake model (ti/crespo_hernandez.py:51-63) -/
structure CH where
  aNear : ℝ
  aFar : ℝ
  e1 : ℝ
  e2 : ℝ
  e3 : ℝ

/-- `near_wake_D`, if not given (ti/crespo_hernandez.py:306-312) -/
def chNear (p : CH) (ti twoa : ℝ) : ℝ :=
  (2 ^ p.e1 * p.aNear / (p.aFar * ti ^ p.e2) * twoa ^ (1 - p.e1)) ^ (1 / p.e3)

/-- far wake delta (ti/crespo_hernandez.py:331-336) -/
def chFar (p : CH) (ti twoa D x : ℝ) : ℝ := p.aFar * (twoa / 2) ^ p.e1 * ti ^ p.e2 * (x / D) ^ p.e3

/-- centreline TI delta (ti/crespo_hernandez.py:299-338) -/
def chCentre (p : CH) (ti twoa D x : ℝ) : ℝ :=
  if x < chNear p ti twoa * D then p.aNear * twoa else chFar p ti twoa D x

/-- `CrespoHernandezTIWake.calc_wake_radius` (ti/crespo_hernandez.py:218-220) -/
def chRadius (a : ℝ → ℝ) (sb D k x ct : ℝ) : ℝ := 2 * (k * x + sb * √(beta (a ct)) * D)

/-- `IECTIWake.calc_centreline` (ti/iec_ti.py:249-252) -/
def iec2005 (D ws x : ℝ) : ℝ := √0.9 / (1.5 + 0.3 * x / D * √ws)
def iec2019 (D ct x : ℝ) : ℝ := 1 / (1.5 + 0.8 * x / D / √ct)

end

end Foxes.WakeModels
