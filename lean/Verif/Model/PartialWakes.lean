import Verif.Model.Circles
import Mathlib.Algebra.BigOperators.Group.Finset.Basic
/-
Model of the partial wakes models (foxes/models/partial_wakes/*.py), for one state and one target rotor. Real numbers replace doubles.
-/
namespace Foxes.PartialWakes
open Foxes.Circles

noncomputable section

/-- Weight of the wake in `PartialTopHat.contribute` (top_hat.py:135-183): the fraction of a rotor disc covered by the wake disc.
`dSrc` is the diameter which the code looks up (`lookup="w"`, i.e. at the wake causing turbine, top_hat.py:156-165), `wr` the wake radius,
`R` the distance of rotor centre and wake axis. A target which is not selected (lines 151, 171) gets no contribution: weight zero. -/
def topHatWeight (ct x dSrc wr R : ℝ) : ℝ :=
  if (ct > 1e-8 ∧ x > 1e-8) ∧ wr > R - dSrc / 2 then calcArea (dSrc / 2) wr R / (Real.pi * (dSrc / 2) ^ 2) else 0

/-- Radii `R2` of `PartialAxiwake.contribute` for a wake centre outside the rotor disc (axiwake.py:156-161), `n + 1` entries. -/
def outerRadius (n : ℕ) (D R : ℝ) (i : ℕ) : ℝ := R + D * ((i : ℝ) / n - 1 / 2)

/-- Ring areas `hA` for a wake centre outside the rotor disc (axiwake.py:164-165). -/
def outerArea (n : ℕ) (D R : ℝ) (i : ℕ) : ℝ :=
  calcArea (D / 2) (outerRadius n D R (i + 1)) R - calcArea (D / 2) (outerRadius n D R i) R + 1e-15

/-- Radii `R1` and `R2` for a wake centre inside the rotor disc (axiwake.py:178-187). -/
def innerRotor (D : ℝ) (i : ℕ) : ℝ := if i = 0 then 0 else D / 2
/-- see `innerRotor` (axiwake.py:184-187) -/
def innerRadius (n : ℕ) (D R : ℝ) (i : ℕ) : ℝ :=
  if i = 0 then 0 else (R + D / 2) / (n - 1 / 2) * (1 / 2 + ((i - 1 : ℕ) : ℝ))

/-- Ring areas `hA` for a wake centre inside the rotor disc (axiwake.py:192-193). -/
def innerArea (n : ℕ) (D R : ℝ) (i : ℕ) : ℝ :=
  calcArea (innerRotor D (i + 1)) (innerRadius n D R (i + 1)) R - calcArea (innerRotor D i) (innerRadius n D R i) R

/-- Weights of the `n` evaluation radii in `PartialAxiwake.contribute` (axiwake.py:139-195). `D` is again the diameter of the wake
causing turbine (lines 116-125). -/
def axiWeight (n : ℕ) (x D R : ℝ) (i : ℕ) : ℝ :=
  if x > 0 ∧ R < D / 2 then innerArea n D R i / ∑ j ∈ Finset.range n, innerArea n D R j
  else if x > 1e-8 ∧ R > D / 2 then outerArea n D R i / ∑ j ∈ Finset.range n, outerArea n D R j
  else 0

/-- Evaluation radii `r` (axiwake.py:134, 162, 188-190). -/
def axiRadius (n : ℕ) (x D R : ℝ) (i : ℕ) : ℝ :=
  if x > 0 ∧ R < D / 2 then (if i = 0 then 0 else (innerRadius n D R (i + 1) + innerRadius n D R i) / 2)
  else if x > 1e-8 ∧ R > D / 2 then (outerRadius n D R (i + 1) + outerRadius n D R i) / 2
  else 0

/-- The delta passed to the superposition (axiwake.py:198-203): weighted sum over the radial profile `f` of the wake model. -/
def axiDelta (n : ℕ) (x D R : ℝ) (f : ℝ → ℝ) : ℝ :=
  ∑ i ∈ Finset.range n, f (axiRadius n x D R i) * axiWeight n x D R i

/-- `PartialSegregated.finalize_wakes` (segregated.py:161-164) after the wake deltas are finalized: the mean over the `n` grid points with
weights `g`, the same for all rotor points. -/
def segregatedDelta (n : ℕ) (g delta : ℕ → ℝ) (_rotorPoint : ℕ) : ℝ := ∑ p ∈ Finset.range n, delta p * g p

end

end Foxes.PartialWakes
