import Mathlib.Algebra.Order.Field.Basic
import Mathlib.Data.List.Sort
import Mathlib.Algebra.BigOperators.Group.List.Basic
/-
Model of the calculation order of wake frames based on the rotor wind direction
(foxes/models/wake_frames/rotor_wd.py:40-66), of their downstream coordinate
(rotor_wd.py:100-119), and of foxes/models/wake_frames/farm_order.py.
-/
namespace Foxes.Order

variable {K : Type} [Field K] [LinearOrder K]

/-- scalar product of horizontal vectors -/
def dot (u v : K × K) : K := u.1 * v.1 + u.2 * v.2

/-- `np.mean(wd2uv(WD, axis=1), axis=-1)` (rotor_wd.py:62): mean of the turbines' wind vectors `d`. -/
def meanDir (n : Nat) (d : Nat → K × K) : K × K :=
  (((List.range n).map (fun t => (d t).1)).sum / n, ((List.range n).map (fun t => (d t).2)).sum / n)

/-- `np.argsort(keys)` for one state: the indices sorted by key. numpy's default algorithm is not stable, so
properties must not rely on the order of equal keys. -/
def argsort (n : Nat) (key : Nat → K) : List Nat :=
  (List.range n).insertionSort (fun i j => key i ≤ key j)

/-- `RotorWD.calc_order` (rotor_wd.py:62-66) for one state; `xy` are the turbine positions. -/
def calcOrder (n : Nat) (xy d : Nat → K × K) : List Nat := argsort n (fun t => dot (xy t) (meanDir n d))

/-- downstream coordinate of point `q` in the wake of turbine `i`: `coos[..., 0]` of
`RotorWD.get_wake_coos` (rotor_wd.py:103-117) -/
def wakeX (xy d : Nat → K × K) (i : Nat) (q : K × K) : K :=
  dot (q.1 - (xy i).1, q.2 - (xy i).2) (d i)

end Foxes.Order
