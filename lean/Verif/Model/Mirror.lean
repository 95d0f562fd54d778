import Verif.Model.Frames
/-
Model of the ground models (foxes/core/ground_model.py, foxes/models/ground_models/wake_mirror.py), for one state. The arrays that are written
to or may be views of each other are kept apart: the height column of `fdata[TXYH]`, the farm variable `fdata[H]`, which is a view of that
column (init_farm_data.py:82-83, 125-126, core/data.py:134-138) unless some model replaced it, and the targets `tdata[TARGETS]`, which are a view of
`fdata[TXYH]` for the partial wakes model `PartialCentre` (partial_wakes/centre.py:41).
-/
noncomputable section
namespace Foxes.Mirror
open Foxes.Frames

/-- the data of one chunk and state; `ι` are the target points -/
structure St (ι δ : Type) where
  /-- `fdata[TXYH][0, :, :2]` -/
  xy : ℕ → ℝ × ℝ
  /-- `fdata[TXYH][0, :, 2]` -/
  z : ℕ → ℝ
  /-- `fdata[H][0]`; none if it is a view of the above -/
  H : Option (ℕ → ℝ)
  /-- the targets: the positions of turbines (a view, `Sum.inl`), or an array of its own -/
  targets : (ι → ℕ) ⊕ (ι → V3)
  /-- the wake deltas -/
  deltas : δ

variable {ι δ : Type}

/-- what is read from `fdata[TXYH][0, j]` -/
def St.hub (s : St ι δ) (j : ℕ) : V3 := ⟨(s.xy j).1, (s.xy j).2, s.z j⟩

/-- what is read from `fdata[H][0]` -/
def St.hubHeights (s : St ι δ) : ℕ → ℝ := s.H.getD s.z

/-- what is read from `tdata[TARGETS]` -/
def St.points (s : St ι δ) : ι → V3 :=
  match s.targets with
  | .inl f => fun i => s.hub (f i)
  | .inr p => p

/-- A contribution to the wake deltas of the turbine at position `j` of the downwind order, as function of all it reads: hub heights, turbine positions,
target points. -/
abbrev Contribution (ι δ : Type) := (ℕ → ℝ) → (ℕ → V3) → (ι → V3) → δ → δ

/-- call of a contribution -/
def St.contribute (s : St ι δ) (c : Contribution ι δ) : St ι δ := { s with deltas := c s.hubHeights s.hub s.points s.deltas }

/-- `NoGround`: `pwake.contribute` (ground_model.py:84) -/
def noGroundFarm (pw : Contribution ι δ) (s : St ι δ) : St ι δ := s.contribute pw

/-- `NoGround` for points: `wmodel.contribute` after `get_wake_coos` (ground_model.py:214-215) -/
def noGroundPoints (wm : Contribution ι δ) (s : St ι δ) : St ι δ := s.contribute wm

/-- `tdata[TARGETS] = tdata[TARGETS].copy()` (wake_mirror.py:82, 137) -/
def St.copyTargets (s : St ι δ) : St ι δ := { s with targets := .inr s.points }

/-- `fdata[TXYH][:, j, 2] = x` -/
def St.setZ (s : St ι δ) (j : ℕ) (x : ℝ) : St ι δ := { s with z := fun i => if i = j then x else s.z i }

/-- the loop over the mirror heights (wake_mirror.py:83-89, 138-147) -/
def mirrorLoop (c : Contribution ι δ) (j : ℕ) (hh : ℝ) : List ℝ → St ι δ → St ι δ
  | [], s => s
  | h :: hs, s => mirrorLoop c j hh hs ((s.setZ j (hh + 2 * (h - hh))).contribute c)

/-- `WakeMirror.contribute_to_farm_wakes` (wake_mirror.py:70-92); the contribution of the main wake is that of the wake model at the target points, `wm`,
those of the mirrors are that of the partial wakes model, `pw` -/
def mirrorFarm (wm pw : Contribution ι δ) (heights : List ℝ) (j : ℕ) (s : St ι δ) : St ι δ :=
  let hh := s.hubHeights j
  (mirrorLoop pw j hh heights (s.contribute wm).copyTargets).setZ j hh

/-- `WakeMirror.contribute_to_point_wakes` (wake_mirror.py:129-150) -/
def mirrorPoints (wm : Contribution ι δ) (heights : List ℝ) (j : ℕ) (s : St ι δ) : St ι δ :=
  let hh := s.hubHeights j
  (mirrorLoop wm j hh heights (s.contribute wm).copyTargets).setZ j hh

/-- A wake model with frame `RotorWD` and linear superposition of deficits `g` (a function of the wake coordinates): the contribution of turbine `j` -/
def linearWake (j : ℕ) (wd : ℝ) (g : V3 → ℝ) : Contribution ι (ι → ℝ) :=
  fun _ hub pts d i => d i + g (wakeCoos (hub j) wd (pts i))

/-- A wake model with frame `Timelines` (timelines.py:346-420): the wake coordinates are only calculated if the hub height is exactly one of the heights
for which time lines exist (line 366), otherwise they stay at 1e20, far outside of all wakes. `far` are these coordinates. -/
def timelinesWake (j : ℕ) (levels : List ℝ) (coos : V3 → V3 → V3) (far : V3) (g : V3 → ℝ) : Contribution ι (ι → ℝ) :=
  fun H hub pts d i =>
    d i + g (open scoped Classical in if H j ∈ levels then coos (hub j) (pts i) else ⟨far.x, far.y, (pts i).z - (hub j).z⟩)

end Foxes.Mirror
