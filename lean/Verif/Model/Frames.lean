import Verif.Model.WindDir
import Mathlib.Algebra.BigOperators.Group.Finset.Basic
/-
Model of the wake coordinates: foxes/models/wake_frames/rotor_wd.py:100-149 and
foxes/models/wake_frames/yawed_wakes.py:165-329 (one state, one wake causing turbine). Real numbers replace doubles.
-/
namespace Foxes.Frames
open Foxes.WindDir

noncomputable section

/-- a point or a vector in space: components `0`, `1`, `2` of the last array axis -/
structure V3 where
  x : ℝ
  y : ℝ
  z : ℝ

/-- componentwise difference `a - b` of numpy arrays (used in rotor_wd.py:104) -/
def V3.sub (a b : V3) : V3 := ⟨a.x - b.x, a.y - b.y, a.z - b.z⟩
/-- componentwise sum (rotor_wd.py:149) -/
def V3.add (a b : V3) : V3 := ⟨a.x + b.x, a.y + b.y, a.z + b.z⟩
/-- scalar times vector (rotor_wd.py:149) -/
def V3.smul (s : ℝ) (a : V3) : V3 := ⟨s * a.x, s * a.y, s * a.z⟩
/-- scalar product: `np.einsum("stpd,sad->stpa", ...)` for one axis `a` (rotor_wd.py:117) -/
def V3.dot (a b : V3) : ℝ := a.x * b.x + a.y * b.y + a.z * b.z
/-- `np.linalg.norm(., axis=-1)` (yawed_wakes.py:317) -/
def V3.norm (a : V3) : ℝ := √(a.x ^ 2 + a.y ^ 2 + a.z ^ 2)
/-- `np.cross(a, b, axis=-1)` (yawed_wakes.py:321) -/
def V3.cross (a b : V3) : V3 := ⟨a.y * b.z - a.z * b.y, a.z * b.x - a.x * b.z, a.x * b.y - a.y * b.x⟩

/-- First axis of the wake frame, `nax[:, 0]` (rotor_wd.py:109-111). -/
def axisN (wd : ℝ) : V3 := ⟨(wd2uv wd 1).1, (wd2uv wd 1).2, 0⟩
/-- Second axis, `nax[:, 1]` (rotor_wd.py:112-113). -/
def axisM (wd : ℝ) : V3 := ⟨-(axisN wd).y, (axisN wd).x, 0⟩
/-- Third axis, `nax[:, 2]` (rotor_wd.py:114). -/
def axisZ : V3 := ⟨0, 0, 1⟩

/-- `RotorWD.get_wake_coos` (rotor_wd.py:100-119) for one target point; `hub` is the `TXYH` entry and `wd` the `WD` entry of the wake
causing turbine. -/
def wakeCoos (hub : V3) (wd : ℝ) (target : V3) : V3 :=
  let delta := target.sub hub
  ⟨delta.dot (axisN wd), delta.dot (axisM wd), delta.dot axisZ⟩

/-- `RotorWD.get_centreline_points` (rotor_wd.py:145-149), one point. -/
def centreline (hub : V3) (wd : ℝ) (x : ℝ) : V3 := hub.add (V3.smul x (axisN wd))

/-- `YawedWakes._update_y` (yawed_wakes.py:165-228) for one target: subtract the deflection. `ydef` is the deflection of the
`Bastankhah2016Model` as function of the downstream coordinate (zero where the model does not select the target); it is not modelled
further. -/
def updateY (ydef : ℝ → ℝ) (x y : ℝ) : ℝ := y - ydef x

/-- `YawedWakes.get_wake_coos` (yawed_wakes.py:262-280) with base frame `RotorWD`, for a target with `n` points and weights `w`
(`tdata[TWEIGHTS]`); result for point `p`. -/
def yawedCoos (ydef : ℝ → ℝ) (hub : V3) (wd : ℝ) (n : ℕ) (w : ℕ → ℝ) (pts : ℕ → V3) (p : ℕ) : V3 :=
  let xyz := fun q => wakeCoos hub wd (pts q)
  let x := ∑ q ∈ Finset.range n, (xyz q).x * w q
  let y := ∑ q ∈ Finset.range n, (xyz q).y * w q
  ⟨(xyz p).x, updateY ydef x y, (xyz p).z⟩

/-- Tangent vectors `nx` of `YawedWakes.get_centreline_points` before normalisation (yawed_wakes.py:311-316), for `n` points. -/
def tangent (n : ℕ) (pts : ℕ → V3) (i : ℕ) : V3 :=
  if i = 0 then (pts 1).sub (pts 0)
  else if i = n - 1 then (pts (n - 1)).sub (pts (n - 2))
  else (V3.smul (1 / 2) ((pts i).sub (pts (i - 1)))).add (V3.smul (1 / 2) ((pts (i + 1)).sub (pts i)))

/-- `YawedWakes.get_centreline_points` (yawed_wakes.py:306-329) with base frame `RotorWD`, point `i` of `n`, at the downstream
coordinates `x`. -/
def yawedCentreline (ydef : ℝ → ℝ) (hub : V3) (wd : ℝ) (n : ℕ) (x : ℕ → ℝ) (i : ℕ) : V3 :=
  let points := fun j => centreline hub wd (x j)
  let t := tangent n points i
  let nx := V3.smul (1 / t.norm) t
  let ny := V3.cross ⟨0, 0, 1⟩ nx
  (points i).add (V3.smul (updateY ydef (x i) 0) ny)

end

end Foxes.Frames
