import Verif.Model.Mirror
import Mathlib.Tactic.Linarith
import Mathlib.Tactic.Ring
import Mathlib.Tactic.NormNum
/-
C42: ground mirrors.
-/
noncomputable section
namespace Foxes.Props.Mirror
open Foxes.Mirror Foxes.Frames

variable {ι δ : Type}

/-- the turbine positions when turbine `j` is moved to height `x` -/
def hubsAt (s : St ι δ) (j : ℕ) (x : ℝ) : ℕ → V3 := fun i => if i = j then ⟨(s.xy j).1, (s.xy j).2, x⟩ else s.hub i

/-- the hub heights a model sees when turbine `j` is moved: they follow, if `fdata[H]` is a view of `fdata[TXYH]` -/
def heightsAt (s : St ι δ) (j : ℕ) (x : ℝ) : ℕ → ℝ := if s.H = none then fun i => if i = j then x else s.z i else s.hubHeights

/-- the height of the mirror image -/
def imageHeight (hh h : ℝ) : ℝ := 2 * h - hh

lemma mirrorLoop_spec (c : Contribution ι δ) (j : ℕ) (hh : ℝ) (p : ι → V3) (xy : ℕ → ℝ × ℝ) (H : Option (ℕ → ℝ)) (hs : List ℝ) (z z0 : ℕ → ℝ)
    (hz : ∀ i, i ≠ j → z i = z0 i) (d : δ) :
    ∃ z', (∀ i, i ≠ j → z' i = z0 i) ∧ mirrorLoop c j hh hs ⟨xy, z, H, .inr p, d⟩ =
      ⟨xy, z', H, .inr p, hs.foldl (fun d h => c (H.getD (fun i => if i = j then imageHeight hh h else z0 i))
        (fun i => ⟨(xy i).1, (xy i).2, if i = j then imageHeight hh h else z0 i⟩) p d) d⟩ := by
  induction hs generalizing z d with
  | nil => exact ⟨z, hz, rfl⟩
  | cons h hs ih =>
    have e : (fun i => if i = j then hh + 2 * (h - hh) else z i) = fun i => if i = j then imageHeight hh h else z0 i := by
      funext i
      by_cases hi : i = j
      · simp only [hi, if_true, imageHeight]; ring
      · simp only [hi, if_false]; exact hz i hi
    obtain ⟨z', h1, h2⟩ := ih (fun i => if i = j then imageHeight hh h else z0 i) (by intro i hi; simp [hi])
      (c (H.getD (fun i => if i = j then imageHeight hh h else z0 i)) (fun i => ⟨(xy i).1, (xy i).2, if i = j then imageHeight hh h else z0 i⟩) p d)
    refine ⟨z', h1, ?_⟩
    simp only [mirrorLoop, St.setZ, St.contribute, e, List.foldl_cons]
    exact h2

/-- Farm wakes with mirrors: the turbine positions, the hub heights and the target points are afterwards as before. The hypothesis says that `fdata[H]` and the
height column of `fdata[TXYH]` agree for the turbine. -/
theorem C42_farm_restores (wm pw : Contribution ι δ) (heights : List ℝ) (j : ℕ) (s : St ι δ) (hH : s.hubHeights j = s.z j) :
    (mirrorFarm wm pw heights j s).hub = s.hub ∧ (mirrorFarm wm pw heights j s).hubHeights = s.hubHeights ∧
    (mirrorFarm wm pw heights j s).points = s.points := by
  obtain ⟨xy, z, H, t, d⟩ := s
  obtain ⟨z', h1, h2⟩ := mirrorLoop_spec pw j (St.hubHeights ⟨xy, z, H, t, d⟩ j) (St.points ⟨xy, z, H, t, d⟩) xy H heights z z (fun _ _ => rfl)
    (wm (St.hubHeights ⟨xy, z, H, t, d⟩) (St.hub ⟨xy, z, H, t, d⟩) (St.points ⟨xy, z, H, t, d⟩) d)
  have e : mirrorFarm wm pw heights j ⟨xy, z, H, t, d⟩ = (mirrorLoop pw j (St.hubHeights ⟨xy, z, H, t, d⟩ j) heights
      ⟨xy, z, H, .inr (St.points ⟨xy, z, H, t, d⟩), wm (St.hubHeights ⟨xy, z, H, t, d⟩) (St.hub ⟨xy, z, H, t, d⟩) (St.points ⟨xy, z, H, t, d⟩) d⟩).setZ j
        (St.hubHeights ⟨xy, z, H, t, d⟩ j) := rfl
  rw [e, h2]
  simp only at hH
  have ez : (fun i => if i = j then St.hubHeights ⟨xy, z, H, t, d⟩ j else z' i) = z := by
    funext i
    by_cases hi : i = j
    · simp only [hi, if_true]; exact hH
    · simp only [hi, if_false]; exact h1 i hi
  simp only [St.setZ, ez]
  exact ⟨rfl, rfl, rfl⟩

/-- The same for the wakes at points. -/
theorem C42_points_restores (wm : Contribution ι δ) (heights : List ℝ) (j : ℕ) (s : St ι δ) (hH : s.hubHeights j = s.z j) :
    (mirrorPoints wm heights j s).hub = s.hub ∧ (mirrorPoints wm heights j s).hubHeights = s.hubHeights ∧
    (mirrorPoints wm heights j s).points = s.points :=
  C42_farm_restores wm wm heights j s hH

/-- In the data of foxes `fdata[H]` is a view of `fdata[TXYH]`, so the hypothesis holds. -/
example (s : St ι δ) (h : s.H = none) (j : ℕ) : s.hubHeights j = s.z j := by simp [St.hubHeights, h]

/-- If some model has replaced `fdata[H]` by an array with other values, the mirror writes these into the turbine positions. -/
theorem C42_replaced_heights_leak : ∃ s : St Unit Unit, (mirrorFarm (fun _ _ _ d => d) (fun _ _ _ d => d) [] 0 s).hub 0 ≠ s.hub 0 := by
  refine ⟨⟨fun _ => (0, 0), fun _ => 100, some (fun _ => 90), .inr (fun _ => ⟨0, 0, 0⟩), ()⟩, ?_⟩
  intro h
  have := congrArg V3.z h
  simp [mirrorFarm, mirrorLoop, St.setZ, St.hub, St.copyTargets, St.contribute, St.hubHeights] at this

/-- The wake deltas: the contribution of the wake model for the turbine where it is, then one contribution for each mirror with the turbine at the height of its
image, `2h - H`, and everything else, in particular all target points, at its place. -/
theorem C42_farm_images (wm pw : Contribution ι δ) (heights : List ℝ) (j : ℕ) (s : St ι δ) :
    (mirrorFarm wm pw heights j s).deltas =
      heights.foldl (fun d h => pw (heightsAt s j (imageHeight (s.hubHeights j) h)) (hubsAt s j (imageHeight (s.hubHeights j) h)) s.points d)
        (wm s.hubHeights s.hub s.points s.deltas) := by
  obtain ⟨xy, z, H, t, d⟩ := s
  obtain ⟨z', h1, h2⟩ := mirrorLoop_spec pw j (St.hubHeights ⟨xy, z, H, t, d⟩ j) (St.points ⟨xy, z, H, t, d⟩) xy H heights z z (fun _ _ => rfl)
    (wm (St.hubHeights ⟨xy, z, H, t, d⟩) (St.hub ⟨xy, z, H, t, d⟩) (St.points ⟨xy, z, H, t, d⟩) d)
  have e : mirrorFarm wm pw heights j ⟨xy, z, H, t, d⟩ = (mirrorLoop pw j (St.hubHeights ⟨xy, z, H, t, d⟩ j) heights
      ⟨xy, z, H, .inr (St.points ⟨xy, z, H, t, d⟩), wm (St.hubHeights ⟨xy, z, H, t, d⟩) (St.hub ⟨xy, z, H, t, d⟩) (St.points ⟨xy, z, H, t, d⟩) d⟩).setZ j
        (St.hubHeights ⟨xy, z, H, t, d⟩ j) := rfl
  rw [e, h2]
  simp only [St.setZ]
  have hA : ∀ h, H.getD (fun i => if i = j then imageHeight (St.hubHeights ⟨xy, z, H, t, d⟩ j) h else z i) =
      heightsAt ⟨xy, z, H, t, d⟩ j (imageHeight (St.hubHeights ⟨xy, z, H, t, d⟩ j) h) := by
    intro h
    cases H with
    | none => simp [heightsAt]
    | some H' => simp [heightsAt, St.hubHeights]
  have hB : ∀ x, (fun i => (⟨(xy i).1, (xy i).2, if i = j then x else z i⟩ : V3)) = hubsAt ⟨xy, z, H, t, d⟩ j x := by
    intro x
    funext i
    by_cases hi : i = j
    · simp [hubsAt, hi]
    · simp [hubsAt, hi, St.hub]
  simp only [hA, hB]

/-- The wake deltas at points are those of the turbine and of its images. -/
theorem C42_points_images (wm : Contribution ι δ) (heights : List ℝ) (j : ℕ) (s : St ι δ) :
    (mirrorPoints wm heights j s).deltas =
      heights.foldl (fun d h => wm (heightsAt s j (imageHeight (s.hubHeights j) h)) (hubsAt s j (imageHeight (s.hubHeights j) h)) s.points d)
        (wm s.hubHeights s.hub s.points s.deltas) :=
  C42_farm_images wm wm heights j s

/-- Without mirror heights: at points, the same wakes as without ground model. -/
theorem C42_no_heights_points (wm : Contribution ι δ) (j : ℕ) (s : St ι δ) : (mirrorPoints wm [] j s).deltas = (noGroundPoints wm s).deltas := by
  rw [C42_points_images]; rfl

/-- Without mirror heights, at rotors: the same wakes as without ground model for exactly those partial wakes models whose contribution is that of the wake
model at the target points, i.e. those that do not override `contribute`. -/
theorem C42_no_heights_farm_partial (wm pw : Contribution ι δ) (j : ℕ) :
    (∀ s : St ι δ, (mirrorFarm wm pw [] j s).deltas = (noGroundFarm pw s).deltas) ↔
    ∀ s : St ι δ, wm s.hubHeights s.hub s.points s.deltas = pw s.hubHeights s.hub s.points s.deltas := by
  constructor <;> intro h s <;> have := h s <;> rw [C42_farm_images] at * <;> exact this

/-- a top hat wake of radius `R` behind a turbine: deficit 1 for targets inside -/
def topHatCentre : Contribution Unit (Unit → ℝ) := fun _ hub pts d i =>
  open scoped Classical in d i + if (0 < (pts i).x - (hub 0).x ∧ |(pts i).y - (hub 0).y| < 100) then 1 else 0

/-- the same wake with the fraction of the rotor (diameter 100, here as an interval) that it covers -/
def topHatFraction : Contribution Unit (Unit → ℝ) := fun _ hub pts d i =>
  open scoped Classical in
  d i + if 0 < (pts i).x - (hub 0).x then max 0 (min 1 ((100 - (|(pts i).y - (hub 0).y| - 50)) / 100)) else 0

/-- The full statement is false: for a partial wake that covers part of the rotor the mirror model without mirrors gives other wakes than no ground model. -/
theorem C42_no_heights_farm_not : ∃ s : St Unit (Unit → ℝ), (mirrorFarm topHatCentre topHatFraction [] 0 s).deltas () = 0 ∧
    (noGroundFarm topHatFraction s).deltas () = 1 / 4 := by
  refine ⟨⟨fun _ => (0, 0), fun _ => 100, none, .inr (fun _ => ⟨500, 125, 100⟩), fun _ => 0⟩, ?_, ?_⟩
  · simp [mirrorFarm, mirrorLoop, St.setZ, St.hub, St.copyTargets, St.contribute, St.points, topHatCentre]
    norm_num
  · simp [noGroundFarm, St.hub, St.contribute, St.points, topHatFraction]
    rw [min_eq_right] <;> norm_num

/-! ### Linear superposition, frame RotorWD -/

/-- the image of a point below the plane at height `h` -/
def reflect (h : ℝ) (p : V3) : V3 := ⟨p.x, p.y, 2 * h - p.z⟩

lemma foldl_linear (j : ℕ) (wd : ℝ) (g : V3 → ℝ) (hs : List ℝ) (A : ℝ → ℕ → ℝ) (B : ℝ → ℕ → V3) (pts : ι → V3) (d : ι → ℝ) (i : ι) :
    hs.foldl (fun d h => linearWake j wd g (A h) (B h) pts d) d i = d i + (hs.map (fun h => g (wakeCoos (B h j) wd (pts i)))).sum := by
  induction hs generalizing d with
  | nil => simp
  | cons h hs ih =>
    rw [List.foldl_cons, ih]
    simp only [linearWake, List.map_cons, List.sum_cons]
    ring

/-- The deficit at a point is the deficit of the turbine there plus the deficits at the images of the point: the mirror images of the turbine may as well be
seen as mirror images of the point. Deficits are even functions of the vertical wake coordinate. -/
theorem C42_linear_images (j : ℕ) (wd : ℝ) (g : V3 → ℝ) (hg : ∀ x y z, g ⟨x, y, -z⟩ = g ⟨x, y, z⟩) (heights : List ℝ) (s : St ι (ι → ℝ))
    (hH : s.hubHeights j = s.z j) (i : ι) :
    (mirrorPoints (linearWake j wd g) heights j s).deltas i =
      s.deltas i + g (wakeCoos (s.hub j) wd (s.points i)) + (heights.map (fun h => g (wakeCoos (s.hub j) wd (reflect h (s.points i))))).sum := by
  rw [C42_points_images, foldl_linear]
  simp only [linearWake]
  congr 2
  apply List.map_congr_left
  intro h _
  have : wakeCoos (hubsAt s j (imageHeight (s.hubHeights j) h) j) wd (s.points i) =
      ⟨(wakeCoos (s.hub j) wd (reflect h (s.points i))).x, (wakeCoos (s.hub j) wd (reflect h (s.points i))).y,
        -(wakeCoos (s.hub j) wd (reflect h (s.points i))).z⟩ := by
    simp only [wakeCoos, hubsAt, if_true, V3.sub, V3.dot, axisN, axisM, axisZ, reflect, St.hub, hH, imageHeight]
    congr 1 <;> ring
  rw [this, hg]

lemma reflect_reflect (h : ℝ) (p : V3) : reflect h (reflect h p) = p := by
  simp [reflect]

/-- With a single mirror, the wake is symmetric with respect to the mirror plane: two points that are images of each other have the same deficit. In
particular there is no vertical gradient of the wake at the ground with `GroundMirror`. -/
theorem C42_symmetric (j : ℕ) (wd : ℝ) (g : V3 → ℝ) (hg : ∀ x y z, g ⟨x, y, -z⟩ = g ⟨x, y, z⟩) (h : ℝ) (s : St ι (ι → ℝ)) (hH : s.hubHeights j = s.z j)
    (i k : ι) (hik : s.points k = reflect h (s.points i)) (hd : s.deltas k = s.deltas i) :
    (mirrorPoints (linearWake j wd g) [h] j s).deltas k = (mirrorPoints (linearWake j wd g) [h] j s).deltas i := by
  rw [C42_linear_images j wd g hg [h] s hH, C42_linear_images j wd g hg [h] s hH, hik, hd, List.map_singleton, List.map_singleton, List.sum_singleton,
    List.sum_singleton, reflect_reflect]
  ring

/-- a case: a Gaussian-like deficit, mirrored at the ground -/
example : ∃ (g : V3 → ℝ), (∀ x y z, g ⟨x, y, -z⟩ = g ⟨x, y, z⟩) ∧
    (mirrorPoints (linearWake 0 270 g) [0] 0 (⟨fun _ => (0, 0), fun _ => 100, none, .inr (fun b => if b then ⟨500, 0, 20⟩ else ⟨500, 0, -20⟩), fun _ => 0⟩ :
      St Bool (Bool → ℝ))).deltas true =
    (mirrorPoints (linearWake 0 270 g) [0] 0 (⟨fun _ => (0, 0), fun _ => 100, none, .inr (fun b => if b then ⟨500, 0, 20⟩ else ⟨500, 0, -20⟩), fun _ => 0⟩ :
      St Bool (Bool → ℝ))).deltas false := by
  refine ⟨fun p => 1 / (1 + p.y ^ 2 + p.z ^ 2), fun x y z => by ring, ?_⟩
  apply C42_symmetric
  · intro x y z; ring
  · simp [St.hubHeights]
  · simp [St.points, reflect]
  · rfl

/-- Mirrors commute for linear superposition: the order of the heights is irrelevant. -/
theorem C42_heights_order (j : ℕ) (wd : ℝ) (g : V3 → ℝ) (hs hs' : List ℝ) (hp : hs.Perm hs') (s : St ι (ι → ℝ)) (i : ι) :
    (mirrorPoints (linearWake j wd g) hs j s).deltas i = (mirrorPoints (linearWake j wd g) hs' j s).deltas i := by
  rw [C42_points_images, C42_points_images, foldl_linear, foldl_linear, (hp.map _).sum_eq]

/-! ### Frame Timelines -/

/-- With the frame `Timelines` mirrors have no effect, unless by chance the image height is one of the heights of the time lines: `fdata[H]` is a view
of the positions, so the frame sees the height of the image, finds no time line for it, and leaves the wake coordinates at their initial values far away. -/
theorem C42_timelines_mirror_without_effect (j : ℕ) (levels : List ℝ) (coos : V3 → V3 → V3) (far : V3) (g : V3 → ℝ) (hfar : ∀ z, g ⟨far.x, far.y, z⟩ = 0)
    (heights : List ℝ) (s : St ι (ι → ℝ)) (hview : s.H = none) (hl : ∀ h ∈ heights, 2 * h - s.z j ∉ levels) :
    (mirrorPoints (timelinesWake j levels coos far g) heights j s).deltas = (noGroundPoints (timelinesWake j levels coos far g) s).deltas := by
  rw [C42_points_images]
  have hz : s.hubHeights j = s.z j := by simp [St.hubHeights, hview]
  have e : (noGroundPoints (timelinesWake j levels coos far g) s).deltas =
      timelinesWake j levels coos far g s.hubHeights s.hub s.points s.deltas := rfl
  rw [e]
  generalize timelinesWake j levels coos far g s.hubHeights s.hub s.points s.deltas = d0
  induction heights generalizing d0 with
  | nil => rfl
  | cons h hs ih =>
    rw [List.foldl_cons]
    have h0 : timelinesWake j levels coos far g (heightsAt s j (imageHeight (s.hubHeights j) h)) (hubsAt s j (imageHeight (s.hubHeights j) h)) s.points d0 = d0 := by
      funext i
      have : heightsAt s j (imageHeight (s.hubHeights j) h) j ∉ levels := by
        simp only [heightsAt, hview, if_true, imageHeight, hz]
        exact hl h (by simp)
      simp [timelinesWake, this, hfar]
    rw [h0]
    exact ih (fun h' hh' => hl h' (by simp [hh'])) d0

/-- a case: hub height 100, time lines at this height, mirror at the ground -/
example : ∀ h ∈ [(0 : ℝ)], 2 * h - (100 : ℝ) ∉ [(100 : ℝ)] := by simp; norm_num


/-- **C42 (targets at the turbines).** For the partial wakes model that evaluates at the rotor centres the targets are a view of the turbine positions; with a
linear wake, rotor `f i` gets from turbine `j` the wake at its own position and those at its positions reflected at the mirror heights, also if it is turbine `j`
itself, which is moved meanwhile. -/
theorem C42_centre_targets (j : ℕ) (wd : ℝ) (g : V3 → ℝ) (hg : ∀ x y z, g ⟨x, y, -z⟩ = g ⟨x, y, z⟩) (heights : List ℝ) (s : St ι (ι → ℝ)) (f : ι → ℕ)
    (ht : s.targets = .inl f) (hH : s.hubHeights j = s.z j) (i : ι) :
    (mirrorFarm (linearWake j wd g) (linearWake j wd g) heights j s).deltas i =
      s.deltas i + g (wakeCoos ⟨(s.xy j).1, (s.xy j).2, s.z j⟩ wd ⟨(s.xy (f i)).1, (s.xy (f i)).2, s.z (f i)⟩) +
      (heights.map (fun h => g (wakeCoos ⟨(s.xy j).1, (s.xy j).2, s.z j⟩ wd ⟨(s.xy (f i)).1, (s.xy (f i)).2, 2 * h - s.z (f i)⟩))).sum := by
  have hp : s.points i = ⟨(s.xy (f i)).1, (s.xy (f i)).2, s.z (f i)⟩ := by simp only [St.points, ht]; rfl
  have h := C42_linear_images j wd g hg heights s hH i
  rw [hp] at h
  exact h

/-- a state with two turbines and the targets at their positions -/
example : ∃ s : St (Fin 2) (Fin 2 → ℝ), s.targets = .inl Fin.val ∧ s.hubHeights 0 = s.z 0 :=
  ⟨⟨fun i => (500 * i, 0), fun _ => 100, none, .inl Fin.val, fun _ => 0⟩, rfl, rfl⟩

end Foxes.Props.Mirror
