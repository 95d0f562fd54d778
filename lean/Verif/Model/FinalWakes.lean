import Mathlib.Data.Real.Basic
import Mathlib.Algebra.BigOperators.Group.List.Basic
/-
Model of how wake deltas become waked rotor point values at a turbine: `finalize_wakes` of the partial wakes models
(foxes/models/partial_wakes/rotor_points.py:42-104, centre.py, segregated.py:84-166, grid.py), reached through
`GroundModel.finalize_farm_wakes` (foxes/core/ground_model.py:88-151), and the addition to the rotor point results in the farm wakes calculations
(foxes/algorithms/downwind/models/farm_wakes_calc.py:81-99). For one state and one variable. Real numbers replace doubles.

Simplifications: arrays with state axis dropped; a view is the row itself, written back; the missing wake variable of an ambient result is not modelled.
-/
namespace Foxes.FinalWakes

inductive Err
  | index | shape
deriving DecidableEq, Repr

/-- what `finalize_wake_deltas` does to the values at each point: the superposition's final value, either of the delta alone, or of the ambient value and the
delta (foxes/core/wake_superposition.py `calc_final_wake_delta`, foxes/models/wake_models/dist_sliced.py:213-216) -/
inductive Final
  | plain (g : ℝ → ℝ)
  | withAmb (f : ℝ → ℝ → ℝ)

/-- numpy's broadcasting of two arrays over points -/
def bcast (f : ℝ → ℝ → ℝ) (a d : List ℝ) : Except Err (List ℝ) :=
  if a.length = d.length then .ok (List.zipWith f a d)
  else match a, d with
    | [x], d => .ok (d.map (f x))
    | a, [y] => .ok (a.map fun x => f x y)
    | _, _ => .error .shape

/-- the final values at points -/
def Final.at (k : Final) (a d : List ℝ) : Except Err (List ℝ) :=
  match k with
  | .plain g => .ok (d.map g)
  | .withAmb f => bcast f a d

/-- `d[:, i, None] if d.shape[1] > 1 else d[:, 0, None]` (rotor_points.py:94-101, segregated.py:143-144, 155) -/
def pick (rows : List (List ℝ)) (i : Nat) : Except Err (List ℝ) :=
  match (if 1 < rows.length then rows[i]? else rows[0]?) with
  | some r => .ok r
  | none => .error .index

/-- `RotorPoints.finalize_wakes` (rotor_points.py:94-104), also of `PartialCentre` -/
def rotorPoints (k : Final) (amb deltas : List (List ℝ)) (i : Nat) : Except Err (List ℝ) := do
  let a ← pick amb i
  let d ← pick deltas i
  k.at a d

/-- `np.einsum("sp,p->s", x, w)`: sizes must match (an axis of size one is broadcast) -/
def wsum (x w : List ℝ) : Except Err ℝ :=
  if x.length = w.length then .ok (List.zipWith (· * ·) x w).sum
  else match x, w with
    | [y], w => .ok (w.map (y * ·)).sum
    | x, [v] => .ok (x.map (· * v)).sum
    | _, _ => .error .shape

/-- `PartialSegregated.finalize_wakes` (segregated.py:133-166): `rw` are the weights of the rotor points, `gw` those of the wake points. The deltas are those of
turbine `i` without the exception for a single turbine (line 138). -/
def segregated (k : Final) (rw gw : List ℝ) (amb deltas : List (List ℝ)) (i : Nat) : Except Err (List ℝ) := do
  let d ← match deltas[i]? with
    | some d => .ok d
    | none => .error .index
  let a ← pick amb i
  let a ← if rw.length = gw.length then pure a else do
    let m ← wsum a rw
    pure (List.replicate gw.length m)
  let x ← k.at a d
  let m ← wsum x gw
  pure (List.replicate rw.length m)

/-- `hres[v] += d[:, None]` in place, in the rotor point results of turbine `i` (farm_wakes_calc.py:89-95): the result must have the size of the row -/
def addTo (res : List (List ℝ)) (i : Nat) (d : List ℝ) : Except Err (List (List ℝ)) := do
  let j := if 1 < res.length then i else 0
  let r ← pick res i
  if d.length = r.length then .ok (res.set j (List.zipWith (· + ·) r d))
  else match d with
    | [y] => .ok (res.set j (r.map (· + y)))
    | _ => .error .shape

/-- one wake model at one turbine (farm_wakes_calc.py:81-99, up to the rotor evaluation): final deltas, then added -/
def evaluate (finalize : List (List ℝ) → Nat → Except Err (List ℝ)) (deltas res : List (List ℝ)) (i : Nat) : Except Err (List (List ℝ)) := do
  let d ← finalize deltas i
  addTo res i d

/-- the wake models one after the other at turbine `i`; each with its own deltas; the ambient results are those without wakes for all of them
(farm_wakes_calc.py:101, 112-134) -/
def evaluateAll : List ((List (List ℝ) → Nat → Except Err (List ℝ)) × List (List ℝ)) → List (List ℝ) → Nat → Except Err (List (List ℝ))
  | [], res, _ => .ok res
  | (f, d) :: ms, res, i => do
    let r ← evaluate f d res i
    evaluateAll ms r i

/-- the mean over rotor points (foxes/core/rotor_model.py, averaged variables) -/
def rotorMean (rw x : List ℝ) : ℝ := (List.zipWith (· * ·) x rw).sum

/-- `TData.tpoint_mean` (foxes/core/data.py:555-571) at one state and target -/
def tpointMean (x w : List ℝ) : Except Err ℝ := wsum x w

end Foxes.FinalWakes
