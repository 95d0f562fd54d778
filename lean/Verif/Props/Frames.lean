import Verif.Model.Frames
import Verif.Props.WindDir
/-
C32: wake coordinates.
-/
namespace Foxes.Props.Frames
open Foxes.Frames Foxes.WindDir

/-- squared Euclidean distance, for the statements -/
noncomputable def dist2 (a b : V3) : ℝ := (a.x - b.x) ^ 2 + (a.y - b.y) ^ 2 + (a.z - b.z) ^ 2

lemma n_unit (wd : ℝ) : (axisN wd).x ^ 2 + (axisN wd).y ^ 2 = 1 := by
  have := (Foxes.Props.WindDir.C31_convention wd 1).2.2.2.2.1
  simpa [axisN] using this

/-- **C32 (isometry).** For every turbine, wind direction and pair of points, the change to wake coordinates preserves distances and maps
the hub to the origin and heights to heights above hub. -/
theorem C32_isometry (hub : V3) (wd : ℝ) (p q : V3) :
    dist2 (wakeCoos hub wd p) (wakeCoos hub wd q) = dist2 p q ∧ wakeCoos hub wd hub = ⟨0, 0, 0⟩ ∧
    (wakeCoos hub wd p).z = p.z - hub.z := by
  have h := n_unit wd
  refine ⟨?_, ?_, ?_⟩
  · simp only [dist2, wakeCoos, V3.sub, V3.dot, axisM, axisZ]
    have hz : (axisN wd).z = 0 := rfl
    rw [hz]
    linear_combination ((p.x - q.x) ^ 2 + (p.y - q.y) ^ 2) * h
  · simp [wakeCoos, V3.sub, V3.dot]
  · simp [wakeCoos, V3.sub, V3.dot, axisZ]

/-- **C32 (meaning of the coordinates).** The first coordinate is measured along the direction into which the wind blows, the second to
its left, the third upwards: the point `hub + x * wind + y * left + z * up` has coordinates `(x, y, z)`. -/
theorem C32_coordinates (hub : V3) (wd x y z : ℝ) :
    let wind := wd2uv wd 1
    let left := (-wind.2, wind.1)
    wakeCoos hub wd ⟨hub.x + x * wind.1 + y * left.1, hub.y + x * wind.2 + y * left.2, hub.z + z⟩ = ⟨x, y, z⟩ := by
  have h := n_unit wd
  simp only [axisN] at h
  simp only [wakeCoos, V3.sub, V3.dot, axisM, axisZ, axisN, V3.mk.injEq]
  refine ⟨?_, ?_, ?_⟩
  · linear_combination x * h
  · linear_combination y * h
  · ring

/-- **C32 (example of use).** With wind from the west, the coordinates of `RotorWD` are the offsets east, north and up. -/
theorem C32_west_wind (hub p : V3) : wakeCoos hub 270 p = ⟨p.x - hub.x, p.y - hub.y, p.z - hub.z⟩ := by
  have h := (Foxes.Props.WindDir.C31_convention 0 1).2.2.2.1
  simp [wakeCoos, V3.sub, V3.dot, axisM, axisZ, axisN, h]

/-- **C32 (centreline, RotorWD).** The centreline point at `x` has the wake coordinates `(x, 0, 0)`. -/
theorem C32_centreline (hub : V3) (wd x : ℝ) : wakeCoos hub wd (centreline hub wd x) = ⟨x, 0, 0⟩ := by
  have h := n_unit wd
  have hz : (axisN wd).z = 0 := rfl
  simp only [wakeCoos, centreline, V3.add, V3.smul, V3.sub, V3.dot, axisM, axisZ, V3.mk.injEq, hz]
  refine ⟨?_, ?_, ?_⟩
  · linear_combination x * h
  · ring
  · ring

/-- **C32 (yawed wakes, single point targets).** The yawed frame shifts the lateral coordinate by the deflection and changes nothing
else. -/
theorem C32_yawed_single_point (ydef : ℝ → ℝ) (hub : V3) (wd : ℝ) (p : V3) :
    yawedCoos ydef hub wd 1 (fun _ => 1) (fun _ => p) 0 =
      ⟨(wakeCoos hub wd p).x, (wakeCoos hub wd p).y - ydef (wakeCoos hub wd p).x, (wakeCoos hub wd p).z⟩ := by
  simp [yawedCoos, updateY]

/-- **C32 (yawed wakes, finding).** All points of a target get the same lateral coordinate, so the lateral coordinate is wrong for every
point that does not happen to lie at the mean lateral coordinate of its target, even without any yaw. -/
theorem C32_yawed_lateral_lost (ydef : ℝ → ℝ) (hub : V3) (wd : ℝ) (n : ℕ) (w : ℕ → ℝ) (pts : ℕ → V3) (p q : ℕ) :
    (yawedCoos ydef hub wd n w pts p).y = (yawedCoos ydef hub wd n w pts q).y ∧
    ((wakeCoos hub wd (pts p)).y ≠ (wakeCoos hub wd (pts q)).y →
      (yawedCoos (fun _ => 0) hub wd n w pts p).y ≠ (wakeCoos hub wd (pts p)).y ∨
      (yawedCoos (fun _ => 0) hub wd n w pts q).y ≠ (wakeCoos hub wd (pts q)).y) := by
  refine ⟨rfl, fun h => ?_⟩
  by_contra hc
  simp only [not_or, not_not] at hc
  exact h (hc.1.symm.trans hc.2)

lemma tangent_pos (hub : V3) (wd : ℝ) (n : ℕ) (hn : 2 ≤ n) (x : ℕ → ℝ) (hx : ∀ i j, i < j → j < n → x i < x j) (i : ℕ) (hi : i < n) :
    ∃ s : ℝ, 0 < s ∧ tangent n (fun j => centreline hub wd (x j)) i = V3.smul s (axisN wd) := by
  unfold tangent
  by_cases h0 : i = 0
  · refine ⟨x 1 - x 0, by have := hx 0 1 (by omega) (by omega); linarith, ?_⟩
    rw [if_pos h0]
    simp only [centreline, V3.add, V3.smul, V3.sub, V3.mk.injEq]
    refine ⟨by ring, by ring, by ring⟩
  · rw [if_neg h0]
    by_cases h1 : i = n - 1
    · refine ⟨x (n - 1) - x (n - 2), by have := hx (n - 2) (n - 1) (by omega) (by omega); linarith, ?_⟩
      rw [if_pos h1]
      simp only [centreline, V3.add, V3.smul, V3.sub, V3.mk.injEq]
      refine ⟨by ring, by ring, by ring⟩
    · refine ⟨(x (i + 1) - x (i - 1)) / 2, by have := hx (i - 1) (i + 1) (by omega) (by omega); linarith, ?_⟩
      rw [if_neg h1]
      simp only [centreline, V3.add, V3.smul, V3.sub, V3.mk.injEq]
      refine ⟨by ring, by ring, by ring⟩

lemma normalised (wd s : ℝ) (hs : 0 < s) :
    V3.smul (1 / (V3.smul s (axisN wd)).norm) (V3.smul s (axisN wd)) = axisN wd := by
  have h := n_unit wd
  have hz : (axisN wd).z = 0 := rfl
  have hn : (V3.smul s (axisN wd)).norm = s := by
    simp only [V3.norm, V3.smul, hz]
    have : (s * (axisN wd).x) ^ 2 + (s * (axisN wd).y) ^ 2 + (s * 0) ^ 2 = s ^ 2 := by linear_combination s ^ 2 * h
    rw [this, Real.sqrt_sq hs.le]
  rw [hn]
  simp only [V3.smul]
  cases ha : axisN wd
  simp only [V3.mk.injEq]
  refine ⟨?_, ?_, ?_⟩ <;> field_simp

/-- **C32 (yawed centreline, finding).** For every increasing list of downstream coordinates, the points returned by
`get_centreline_points` of the yawed frame are displaced to the wrong side: their lateral wake coordinate in the same frame is minus twice
the deflection, instead of zero. -/
theorem C32_yawed_centreline_mirrored (ydef : ℝ → ℝ) (hub : V3) (wd : ℝ) (n : ℕ) (hn : 2 ≤ n) (x : ℕ → ℝ)
    (hx : ∀ i j, i < j → j < n → x i < x j) (i : ℕ) (hi : i < n) :
    yawedCoos ydef hub wd 1 (fun _ => 1) (fun _ => yawedCentreline ydef hub wd n x i) 0 = ⟨x i, -2 * ydef (x i), 0⟩ := by
  obtain ⟨s, hs, ht⟩ := tangent_pos hub wd n hn x hx i hi
  have h := n_unit wd
  have hz : (axisN wd).z = 0 := rfl
  have hp : yawedCentreline ydef hub wd n x i = (centreline hub wd (x i)).add (V3.smul (-(ydef (x i))) (axisM wd)) := by
    unfold yawedCentreline
    simp only
    rw [ht, normalised wd s hs]
    simp only [V3.cross, updateY, axisM, hz, zero_sub, mul_zero, zero_mul, one_mul, sub_zero]
  rw [C32_yawed_single_point, hp]
  have hw : wakeCoos hub wd ((centreline hub wd (x i)).add (V3.smul (-(ydef (x i))) (axisM wd))) = ⟨x i, -ydef (x i), 0⟩ := by
    simp only [wakeCoos, centreline, V3.add, V3.smul, V3.sub, V3.dot, axisM, axisZ, V3.mk.injEq, hz]
    refine ⟨?_, ?_, ?_⟩
    · linear_combination x i * h
    · linear_combination (-ydef (x i)) * h
    · ring
  rw [hw]
  simp only [V3.mk.injEq, true_and, and_true]
  ring

/-- Without deflection both functions of the yawed frame agree (all that remains of the centreline property). -/
theorem C32_yawed_centreline_partial (ydef : ℝ → ℝ) (hub : V3) (wd : ℝ) (n : ℕ) (hn : 2 ≤ n) (x : ℕ → ℝ)
    (hx : ∀ i j, i < j → j < n → x i < x j) (i : ℕ) (hi : i < n) :
    yawedCoos ydef hub wd 1 (fun _ => 1) (fun _ => yawedCentreline ydef hub wd n x i) 0 = ⟨x i, 0, 0⟩ ↔ ydef (x i) = 0 := by
  rw [C32_yawed_centreline_mirrored ydef hub wd n hn x hx i hi]
  simp

/- hypotheses met: three points at 100, 200, 300 m -/
example : 2 ≤ 3 ∧ ∀ i j : ℕ, i < j → j < 3 → ((fun k : ℕ => 100 * ((k : ℝ) + 1)) i) < (fun k : ℕ => 100 * ((k : ℝ) + 1)) j := by
  refine ⟨by norm_num, fun i j h _ => ?_⟩
  have : (i : ℝ) < j := by exact_mod_cast h
  simp only; linarith
/- a case where the lateral coordinate is lost: two points 50 m left and right of the hub, wind from the west -/
example : (wakeCoos ⟨0, 0, 100⟩ 270 ⟨500, 50, 100⟩).y ≠ (wakeCoos ⟨0, 0, 100⟩ 270 ⟨500, -50, 100⟩).y := by
  rw [C32_west_wind, C32_west_wind]; norm_num

end Foxes.Props.Frames
