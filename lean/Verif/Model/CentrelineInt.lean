import Verif.Model.WakeModels
import Mathlib.Algebra.Order.Floor.Ring
/-
Model of the integrals along the wake centreline, foxes/core/wake_frame.py:188-320 (one state, one variable), and of the wake model that uses
them, foxes/models/wake_models/wind/turbopark.py:436-512. Real numbers replace doubles: `np.arange(xmin, xmin + n_ix * dx, dx)` has exactly
`n_ix` entries. The variable is given as a function of the distance along the centreline (ambient states plus wakes at the centreline points).
NaN in `x` is not modelled.
-/
namespace Foxes.CentrelineInt
open Foxes.WakeModels

noncomputable section
open scoped Classical

/-- Python's `int(.)` of a float: towards zero (wake_frame.py:241) -/
def pyInt (q : ℝ) : ℤ := if 0 ≤ q then ⌊q⌋ else ⌈q⌉

/-- `np.nanmax(x)` (wake_frame.py:240) of the first value and the others -/
def nanmax (x0 : ℝ) (xall : List ℝ) : ℝ := xall.foldl max x0

/-- `n_steps` (wake_frame.py:239-243); `xmin` is zero -/
def nSteps (xmax dx : ℝ) : ℤ :=
  let n := pyInt ((xmax - 0) / dx)
  if 0 + n * dx < xmax then n + 1 else n

/-- `iresults` (wake_frame.py:293-297): entry `i` of the running sums; the evaluation points are `xs[1:]` (wake_frame.py:244-248) -/
def iresults (f : ℝ → ℝ) (dx : ℝ) : ℕ → ℝ
  | 0 => 0
  | i + 1 => iresults f dx i + f (0 + ((i + 1 : ℕ) : ℝ) * dx) * dx

/-- the index of the cell of a regular grid that contains `x`, at most `k` (scipy `find_interval_ascending`) -/
def cell (dx x : ℝ) : ℕ → ℕ
  | 0 => 0
  | k + 1 => if ((k + 1 : ℕ) : ℝ) * dx ≤ x then k + 1 else cell dx x k

/-- `interpn(..., bounds_error=False, fill_value=0.0)` along the second axis (wake_frame.py:300-311), grid `j * dx` for `j ≤ n`; the first axis
is hit exactly at its grid points -/
def interp (dx : ℝ) (n : ℕ) (v : ℕ → ℝ) (x : ℝ) : ℝ :=
  if x < 0 ∨ n * dx < x then 0
  else if n = 0 then v 0
  else
    let i := cell dx x (n - 1)
    let t := (x - i * dx) / ((i + 1) * dx - i * dx)
    v i * (1 - t) + v (i + 1) * t

/-- `calc_centreline_integral` (wake_frame.py:188-320) at one of the points `x0 :: xall` of the chunk; `none`: ValueError, negative dimension
(wake_frame.py:246) -/
def integral (f : ℝ → ℝ) (maxLen dx : ℝ) (x0 : ℝ) (xall : List ℝ) (x : ℝ) : Option ℝ :=
  let n := nSteps (min (nanmax x0 xall) maxLen) dx
  if n < 0 then none else some (interp dx n.toNat (iresults f dx) x)

/-- `sigma` of `TurbOParkWakeIX` (turbopark.py:480-501); `ti` the integral -/
def ixSigma (a : ℝ → ℝ) (sb D k ct ti : ℝ) : ℝ :=
  let epsilon := sb * √(beta (a ct))
  D * epsilon + k * ti

/-- amplitude and sigma of `TurbOParkWakeIX` at one target (turbopark.py:436-512): inner `none` if the target is not selected; the integral is
only calculated if a target of the chunk is selected (`anySel`), and for all targets of the chunk then -/
def turboIX (a : ℝ → ℝ) (sb D k ct maxLen dx : ℝ) (f : ℝ → ℝ) (x0 : ℝ) (xall : List ℝ) (anySel : Bool) (x : ℝ) : Option (Option (ℝ × ℝ)) :=
  if anySel then
    match integral f maxLen dx x0 xall x with
    | none => none
    | some ti =>
      if 1e-8 < x ∧ 1e-8 < ct then
        let sigma := ixSigma a sb D k ct ti
        some (some (amplitude a D sigma ct, sigma))
      else some none
  else some none

end

end Foxes.CentrelineInt
