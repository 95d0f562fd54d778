import Verif.Model.WindDir
import Mathlib.Tactic.Linarith
import Mathlib.Tactic.Positivity
import Mathlib.Tactic.NormNum
import Mathlib.Tactic.Ring
import Mathlib.Tactic.FieldSimp
/-
C31: wind directions and wind vectors.
-/
namespace Foxes.Props.WindDir
open Foxes.WindDir

lemma npMod_range (x m : ℝ) (hm : 0 < m) : 0 ≤ npMod x m ∧ npMod x m < m := by
  unfold npMod
  have h1 := Int.floor_le (x / m)
  have h2 := Int.lt_floor_add_one (x / m)
  rw [le_div_iff₀ hm] at h1
  rw [div_lt_iff₀ hm] at h2
  constructor <;> nlinarith

lemma npMod_congr (x m : ℝ) : ∃ k : ℤ, npMod x m = x + m * k := ⟨-⌊x / m⌋, by unfold npMod; push_cast; ring⟩

lemma npMod_unique (x y m : ℝ) (hm : 0 < m) (h0 : 0 ≤ y) (h1 : y < m) (k : ℤ) (hk : y = x + m * k) : npMod x m = y := by
  have : ⌊x / m⌋ = -k := by
    rw [Int.floor_eq_iff]
    push_cast
    constructor
    · rw [le_div_iff₀ hm]; nlinarith
    · rw [div_lt_iff₀ hm]; nlinarith
  unfold npMod
  rw [this, hk]; push_cast; ring

lemma npMod_id (x m : ℝ) (hm : 0 < m) (h0 : 0 ≤ x) (h1 : x < m) : npMod x m = x :=
  npMod_unique x x m hm h0 h1 0 (by simp)

lemma npMod_periodic (x m : ℝ) (hm : 0 < m) (k : ℤ) : npMod (x + m * k) m = npMod x m := by
  obtain ⟨j, hj⟩ := npMod_congr x m
  refine npMod_unique _ _ m hm (npMod_range x m hm).1 (npMod_range x m hm).2 (j - k) ?_
  rw [hj]; push_cast; ring

/-- **C31 (convention).** A wind direction tells where the wind comes from, clockwise from north: direction 0 blows to the south, 90 to
the west, 270 to the east. The length of the vector is the wind speed. -/
theorem C31_convention (wd ws : ℝ) :
    wd2uv 0 ws = (0, -ws) ∧ wd2uv 90 ws = (-ws, 0) ∧ wd2uv 180 ws = (0, ws) ∧ wd2uv 270 ws = (ws, 0) ∧
    (wd2uv wd ws).1 ^ 2 + (wd2uv wd ws).2 ^ 2 = ws ^ 2 ∧ wd2uv (wd + 360) ws = wd2uv wd ws := by
  have h90 : (90 : ℝ) * Real.pi / 180 = Real.pi / 2 := by ring
  have h180 : (180 : ℝ) * Real.pi / 180 = Real.pi := by ring
  have h270 : (270 : ℝ) * Real.pi / 180 = Real.pi / 2 + Real.pi := by ring
  have h360 : (wd + 360) * Real.pi / 180 = wd * Real.pi / 180 + 2 * Real.pi := by ring
  refine ⟨?_, ?_, ?_, ?_, ?_, ?_⟩
  · simp [wd2uv, wd2wdvec]
  · simp [wd2uv, wd2wdvec, h90]
  · simp [wd2uv, wd2wdvec, h180]
  · simp [wd2uv, wd2wdvec, h270, Real.sin_add_pi, Real.cos_add_pi]
  · simp only [wd2uv, wd2wdvec]
    have := Real.sin_sq_add_cos_sq (wd * Real.pi / 180)
    linear_combination ws ^ 2 * this
  · simp only [wd2uv, wd2wdvec, h360, Real.sin_add_two_pi, Real.cos_add_two_pi]

/-- **C31 (range).** The direction of any vector lies in `[0, 360)`. -/
theorem C31_range (uv : ℝ × ℝ) : 0 ≤ uv2wd uv ∧ uv2wd uv < 360 := npMod_range _ _ (by norm_num)

/-- polar angle of a vector with given direction -/
lemma arctan2_polar (r t : ℝ) (hr : 0 < r) (h1 : -Real.pi < t) (h2 : t ≤ Real.pi) :
    arctan2 (r * Real.sin t) (r * Real.cos t) = t := by
  have := Complex.arg_mul_cos_add_sin_mul_I hr ⟨h1, h2⟩
  unfold arctan2
  convert this using 2
  apply Complex.ext <;> simp [Complex.cos_ofReal_re, Complex.sin_ofReal_re, Complex.cos_ofReal_im, Complex.sin_ofReal_im]

/-- **C31 (round trip from direction).** For every positive wind speed, converting a direction to a vector and back returns the direction
modulo 360, hence the direction itself if it lies in `[0, 360)`. -/
theorem C31_direction_round_trip (wd ws : ℝ) (hws : 0 < ws) :
    (0 ≤ wd → wd < 360 → uv2wd (wd2uv wd ws) = wd ∧ wdvec2wd (wd2wdvec wd ws) = wd) ∧
    ∃ k : ℤ, uv2wd (wd2uv wd ws) = wd + 360 * k := by
  have key : ∀ w, 0 < w → w ≤ 360 → uv2wd (wd2uv w ws) = npMod w 360 := by
    intro w h0 h1
    have hp := Real.pi_pos
    set t := w * Real.pi / 180 - Real.pi with ht
    have e1 : (wd2uv w ws) = (ws * Real.sin t, ws * Real.cos t) := by
      rw [ht, Real.sin_sub_pi, Real.cos_sub_pi]
      simp only [wd2uv, wd2wdvec]
      ring_nf
    have t1 : -Real.pi < t := by rw [ht]; have : 0 < w * Real.pi / 180 := by positivity
                                 linarith
    have t2 : t ≤ Real.pi := by
      rw [ht]
      have : w * Real.pi / 180 ≤ 360 * Real.pi / 180 := by gcongr
      linarith
    rw [e1]
    unfold uv2wd
    rw [arctan2_polar ws t hws t1 t2, ht]
    congr 1
    field_simp; ring
  have gen : uv2wd (wd2uv wd ws) = npMod wd 360 := by
    obtain ⟨k, hk⟩ : ∃ k : ℤ, 0 < wd + 360 * k ∧ wd + 360 * k ≤ 360 := by
      obtain ⟨j, hj⟩ := npMod_congr wd 360
      obtain ⟨a, b⟩ := npMod_range wd 360 (by norm_num)
      by_cases h : npMod wd 360 = 0
      · exact ⟨j + 1, by push_cast; constructor <;> linarith⟩
      · exact ⟨j, by have : 0 < npMod wd 360 := lt_of_le_of_ne a (Ne.symm h)
                     constructor <;> linarith⟩
    have per : ∀ (k : ℤ), wd2uv (wd + 360 * k) ws = wd2uv wd ws := by
      intro k
      have : (wd + 360 * k) * Real.pi / 180 = wd * Real.pi / 180 + k * (2 * Real.pi) := by ring
      simp only [wd2uv, wd2wdvec, this, Real.sin_add_int_mul_two_pi, Real.cos_add_int_mul_two_pi]
    rw [← per k, key _ hk.1 hk.2, npMod_periodic _ _ (by norm_num)]
  refine ⟨fun h0 h1 => ?_, ?_⟩
  · have e := npMod_id wd 360 (by norm_num) h0 h1
    exact ⟨by rw [gen, e], by unfold wdvec2wd; exact (gen.trans e)⟩
  · rw [gen]; exact npMod_congr wd 360

/-- **C31 (round trip from vector).** Every vector is recovered from its direction and its length. -/
theorem C31_vector_round_trip (uv : ℝ × ℝ) : wd2uv (uv2wd uv) √(uv.1 ^ 2 + uv.2 ^ 2) = uv := by
  obtain ⟨u, v⟩ := uv
  obtain ⟨k, hk⟩ := npMod_congr (180 + arctan2 u v * 180 / Real.pi) 360
  have hp := Real.pi_ne_zero
  unfold uv2wd
  simp only
  rw [hk]
  have : (180 + arctan2 u v * 180 / Real.pi + 360 * k) * Real.pi / 180 = (arctan2 u v + Real.pi) + k * (2 * Real.pi) := by
    field_simp; ring
  simp only [wd2uv, wd2wdvec, this, Real.sin_add_int_mul_two_pi, Real.cos_add_int_mul_two_pi, Real.sin_add_pi, Real.cos_add_pi]
  have hn : ‖(⟨v, u⟩ : ℂ)‖ = √(u ^ 2 + v ^ 2) := by
    rw [Complex.norm_def, Complex.normSq_mk]; congr 1; ring
  have c := Complex.norm_mul_cos_arg ⟨v, u⟩
  have s := Complex.norm_mul_sin_arg ⟨v, u⟩
  rw [hn] at c s
  simp only at c s
  unfold arctan2
  ext
  · simp; linarith
  · simp; linarith

/-- **C31 (delta_wd).** For directions less than one and a half turns apart (in particular both in `[0, 360)`) the delta leads from the
first to the second modulo 360 and is the smallest such angle; swapping the directions changes its sign. -/
theorem C31_delta_wd (a b : ℝ) (h : |b - a| ≤ 540) :
    -180 ≤ deltaWd a b ∧ deltaWd a b ≤ 180 ∧ (∃ k : ℤ, b = a + deltaWd a b + 360 * k) ∧
    (∀ k : ℤ, |deltaWd a b| ≤ |b - a - 360 * k|) ∧ deltaWd b a = - deltaWd a b := by
  have h := abs_le.1 h
  have r1 : -180 ≤ deltaWd a b ∧ deltaWd a b ≤ 180 ∧ (∃ k : ℤ, b = a + deltaWd a b + 360 * k) := by
    unfold deltaWd
    simp only
    split_ifs with c1 c2 c2
    · linarith
    · exact ⟨by linarith, by linarith, -1, by push_cast; ring⟩
    · exact ⟨by linarith, by linarith, 1, by push_cast; ring⟩
    · exact ⟨by linarith, by linarith, 0, by push_cast; ring⟩
  obtain ⟨l, u, k0, hk0⟩ := r1
  refine ⟨l, u, ⟨k0, hk0⟩, ?_, ?_⟩
  · intro k
    have e : b - a - 360 * k = deltaWd a b + 360 * ((k0 - k : ℤ) : ℝ) := by push_cast; linarith
    rw [e]
    set d := deltaWd a b
    have hd : |d| ≤ 180 := abs_le.2 ⟨l, u⟩
    rcases lt_trichotomy (k0 - k) 0 with hj | hj | hj
    · have : ((k0 - k : ℤ) : ℝ) ≤ -1 := by exact_mod_cast Int.le_sub_one_of_lt hj
      rw [abs_of_nonpos (a := d + _) (by nlinarith)]
      linarith
    · rw [hj]; simp
    · have : (1 : ℝ) ≤ ((k0 - k : ℤ) : ℝ) := by exact_mod_cast hj
      rw [abs_of_nonneg (a := d + _) (by nlinarith)]
      linarith
  · unfold deltaWd
    simp only
    split_ifs <;> linarith

/-- **C31 (delta_wd, limit).** The bound is needed: beyond one and a half turns the result is not the smallest angle. -/
theorem C31_delta_wd_limit : deltaWd (0 : ℝ) 700 = 340 := by unfold deltaWd; norm_num

/-- **C31 (yaw).** With a wind direction in `[0, 360)`, computing the yaw from a misalignment in `(-180, 180)` and back returns the
misalignment; computing the misalignment from a yaw in `[0, 360)` and back returns the yaw. -/
theorem C31_yaw_round_trip (wd x : ℝ) (h0 : 0 ≤ wd) (h1 : wd < 360) :
    (-180 < x → x < 180 → yaw2yawm wd (yawm2yaw wd x) = x) ∧ (0 ≤ x → x < 360 → yawm2yaw wd (yaw2yawm wd x) = x) := by
  constructor
  · intro l u
    have : yawm2yaw wd x = wd + x ∨ yawm2yaw wd x = wd + x - 360 ∨ yawm2yaw wd x = wd + x + 360 := by
      by_cases c : wd + x < 0
      · exact Or.inr (Or.inr (npMod_unique _ _ 360 (by norm_num) (by linarith) (by linarith) 1 (by push_cast; ring)))
      · by_cases c' : wd + x < 360
        · exact Or.inl (npMod_id _ 360 (by norm_num) (by linarith) c')
        · exact Or.inr (Or.inl (npMod_unique _ _ 360 (by norm_num) (by linarith) (by linarith) (-1) (by push_cast; ring)))
    unfold yaw2yawm deltaWd
    rcases this with h | h | h <;> rw [h] <;> simp only <;> split_ifs <;> linarith
  · intro l u
    obtain ⟨-, -, ⟨k, hk⟩, -, -⟩ := C31_delta_wd wd x (abs_le.2 ⟨by linarith, by linarith⟩)
    exact npMod_unique _ _ 360 (by norm_num) l u k hk

/- non-trivial values -/
example : (0 : ℝ) < 9 ∧ (0 : ℝ) ≤ 268.8 ∧ (268.8 : ℝ) < 360 := by norm_num
example : deltaWd (350 : ℝ) 10 = 20 ∧ deltaWd (10 : ℝ) 350 = -20 ∧ |(10 : ℝ) - 350| ≤ 540 := by
  refine ⟨?_, ?_, ?_⟩
  · unfold deltaWd; norm_num
  · unfold deltaWd; norm_num
  · rw [abs_le]; constructor <;> norm_num

end Foxes.Props.WindDir
