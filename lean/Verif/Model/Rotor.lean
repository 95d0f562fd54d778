import Verif.Model.Frames
import Mathlib.Analysis.SpecialFunctions.Pow.Real
import Mathlib.Data.Finset.Prod
/-
Model of foxes/core/rotor_model.py:131-324 and foxes/models/rotor_models/*.py, for one state and one turbine. Real numbers replace
doubles. Sets of rotor points are index sets: the order of the points, which has no effect on sums over them, is not modelled.
-/
namespace Foxes.Rotor
open Foxes.WindDir Foxes.Frames
open scoped Classical

noncomputable section

/-! ### Grid rotor (grid.py) -/

/-- `x[i]` (grid.py:74-75): relative coordinate of grid index `i`. -/
def gridCoord (n i : ℕ) : ℝ := -1 + ((i : ℝ) + 1 / 2) * (2 / n)

/-- `hx[k]` (grid.py:86-92): coordinate of sample `k` within cell `i`. -/
def sampleCoord (n nint i k : ℕ) : ℝ := gridCoord n i - 2 / n / 2 + ((k : ℝ) + 1 / 2) * (2 / n / nint)

/-- `self.__weights[i, j]` before normalisation (grid.py:93-97): the fraction of samples of cell `(i, j)` inside the unit disc. -/
def gridRaw (n nint : ℕ) (c : ℕ × ℕ) : ℝ :=
  (((Finset.range nint ×ˢ Finset.range nint).filter
    (fun kl => √(sampleCoord n nint c.1 kl.1 ^ 2 + sampleCoord n nint c.2 kl.2 ^ 2) ≤ 1)).card : ℝ) / (nint : ℝ) ^ 2

/-- Cells of the rotor points (grid.py:100-101 with `reduce=True`, all cells otherwise). -/
def gridCells (n nint : ℕ) (reduce : Bool) : Finset (ℕ × ℕ) :=
  if reduce then (Finset.range n ×ˢ Finset.range n).filter (fun c => gridRaw n nint c > 0) else Finset.range n ×ˢ Finset.range n

/-- `rotor_point_weights()` of the grid rotor (grid.py:102-103, 108). -/
def gridWeight (n nint : ℕ) (reduce : Bool) (c : ℕ × ℕ) : ℝ :=
  if reduce then gridRaw n nint c / ∑ c' ∈ gridCells n nint true, gridRaw n nint c' else 1 / ((n * n : ℕ) : ℝ)

/-- `design_points()` of the grid rotor (grid.py:78-80). -/
def gridPoint (n : ℕ) (c : ℕ × ℕ) : V3 := ⟨0, gridCoord n c.1, gridCoord n c.2⟩

/-! ### Level rotor (levels.py) -/

/-- `hx[k]` (levels.py:80): `np.linspace(1, -1, nint)[k]`. -/
def levelX (nint k : ℕ) : ℝ := if nint = 1 then 1 else 1 + (k : ℝ) * (-2 / ((nint : ℝ) - 1))

/-- `self.weights[i]` before normalisation (levels.py:82-89). -/
def levelRaw (n nint i : ℕ) : ℝ :=
  (((Finset.range nint ×ˢ Finset.range nint).filter
    (fun kl => √(levelX nint kl.1 ^ 2 + sampleCoord n nint i kl.2 ^ 2) ≤ 1)).card : ℝ) / (nint : ℝ) ^ 2

/-- Levels of the rotor points (levels.py:91-92 with `reduce=True`). -/
def levels (n nint : ℕ) : Finset ℕ := (Finset.range n).filter (fun i => levelRaw n nint i > 0)

/-- Weights of the level rotor with `reduce=True` (levels.py:93-94). -/
def levelWeight (n nint i : ℕ) : ℝ := levelRaw n nint i / ∑ j ∈ levels n nint, levelRaw n nint j

/-! ### Points and evaluation (rotor_model.py) -/

/-- `get_rotor_points` (rotor_model.py:158-173) for one design point `d`. -/
def rotorPoint (hub : V3) (yaw D : ℝ) (d : V3) : V3 :=
  hub.add (V3.smul (1 / 2 * D) (((V3.smul d.x (axisN yaw)).add (V3.smul d.y (axisM yaw))).add (V3.smul d.z axisZ)))

variable {ι : Type} (P : Finset ι) (w : ι → ℝ)

/-- mean wind vector `uv` (rotor_model.py:238-241) -/
def meanUV (wd ws : ι → ℝ) : ℝ × ℝ :=
  (∑ p ∈ P, (wd2uv (wd p) (ws p)).1 * w p, ∑ p ∈ P, (wd2uv (wd p) (ws p)).2 * w p)

/-- `WD` and `YAW` result (rotor_model.py:246-250) -/
def evalWD (wd ws : ι → ℝ) : ℝ := uv2wd (meanUV P w wd ws)

/-- `WS` result (rotor_model.py:251-253) -/
def evalWS (wd ws : ι → ℝ) : ℝ := √((meanUV P w wd ws).1 ^ 2 + (meanUV P w wd ws).2 ^ 2)

/-- wind speed along the rotor axis, `wsp` (rotor_model.py:267-268) -/
def axial (yaw wd ws : ℝ) : ℝ := (wd2uv wd ws).1 * (wd2uv yaw 1).1 + (wd2uv wd ws).2 * (wd2uv yaw 1).2

/-- `REWS` result (rotor_model.py:271-272) -/
def evalREWS (yaw : ℝ) (wd ws : ι → ℝ) : ℝ := max (∑ p ∈ P, axial yaw (wd p) (ws p) * w p) 0

/-- `np.sign` (used in rotor_model.py:286) -/
def npSign (x : ℝ) : ℝ := if x < 0 then -1 else if x > 0 then 1 else 0

/-- `REWS2` result (rotor_model.py:277-292) -/
def evalREWS2 (yaw : ℝ) (wd ws : ι → ℝ) : ℝ :=
  if P.card > 1 then
    √(max (∑ p ∈ P, npSign (axial yaw (wd p) (ws p)) * axial yaw (wd p) (ws p) ^ 2 * w p) 0)
  else √(∑ p ∈ P, axial yaw (wd p) (ws p) ^ 2 * w p)

/-- `REWS3` result (rotor_model.py:297-309) -/
def evalREWS3 (yaw : ℝ) (wd ws : ι → ℝ) : ℝ :=
  if P.card > 1 then
    (max (∑ p ∈ P, axial yaw (wd p) (ws p) ^ 3 * w p) 0) ^ (1 / 3 : ℝ)
  else (∑ p ∈ P, axial yaw (wd p) (ws p) ^ 3 * w p) ^ (1 / 3 : ℝ)

/-- Result for any other variable (rotor_model.py:317-322). -/
def evalOther (data : ι → ℝ) : ℝ := ∑ p ∈ P, data p * w p

/-- `REWS`, `REWS2`, `REWS3` of the centre rotor with a single rotor point (centre.py:181-187). -/
def centreREWS (yaw wd ws : ℝ) : ℝ := axial yaw wd ws

end

end Foxes.Rotor
