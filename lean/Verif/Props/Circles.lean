import Verif.Model.Circles
import Mathlib.MeasureTheory.Measure.Lebesgue.VolumeOfBalls
import Mathlib.MeasureTheory.Measure.Lebesgue.Complex
import Mathlib.MeasureTheory.Measure.Haar.InnerProductSpace
import Mathlib.Analysis.SpecialFunctions.Trigonometric.InverseDeriv
import Mathlib.MeasureTheory.Integral.IntervalIntegral.FundThmCalculus
import Mathlib.MeasureTheory.Integral.Prod
import Mathlib.Analysis.Complex.Isometry
import Mathlib.Tactic.Linarith
import Mathlib.Tactic.Positivity
import Mathlib.Tactic.FieldSimp

/-! C28: `calc_area` is the area of the intersection of two discs. -/

namespace Foxes.Props.Circles

open Foxes.Circles MeasureTheory Set

lemma cap_simp (r e : ℝ) (hr : 0 < r) (h1 : -r ≤ e) (h2 : e ≤ r) :
    cap r e = r ^ 2 * Real.arccos (e / r) - e * √(r ^ 2 - e ^ 2) := by
  unfold cap
  have a : e / r ≤ 1 := by rw [div_le_one hr]; exact h2
  have b : -1 ≤ e / r := by rw [le_div_iff₀ hr]; linarith
  rw [min_eq_left a, max_eq_left b, max_eq_left (by nlinarith)]

/-- Area under a half circle right of `e`, twice. -/
lemma cap_integral (r e : ℝ) (hr : 0 < r) (h1 : -r ≤ e) (h2 : e ≤ r) :
    ∫ x in e..r, 2 * √(r ^ 2 - x ^ 2) = cap r e := by
  rw [cap_simp r e hr h1 h2]
  have hF : ∀ x ∈ Ioo e r, HasDerivAt (fun x => x * √(r ^ 2 - x ^ 2) - r ^ 2 * Real.arccos (x / r))
      (2 * √(r ^ 2 - x ^ 2)) x := by
    intro x hx
    have hx1 : -r < x := lt_of_le_of_lt h1 hx.1
    have hx2 : x < r := hx.2
    have hpos : 0 < r ^ 2 - x ^ 2 := by nlinarith
    have hs : 0 < √(r ^ 2 - x ^ 2) := Real.sqrt_pos.2 hpos
    have d1 : HasDerivAt (fun x : ℝ => r ^ 2 - x ^ 2) (-(2 * x)) x := by
      have := ((hasDerivAt_id x).pow 2).const_sub (r ^ 2)
      simpa using this
    have d2 := (hasDerivAt_id x).mul (d1.sqrt hpos.ne')
    have d3 : HasDerivAt (fun x : ℝ => x / r) (1 / r) x := (hasDerivAt_id x).div_const r
    have n1 : x / r ≠ -1 := by
      intro h; rw [div_eq_iff hr.ne'] at h; linarith
    have n2 : x / r ≠ 1 := by
      intro h; rw [div_eq_iff hr.ne'] at h; linarith
    have d4 := (HasDerivAt.comp x (Real.hasDerivAt_arccos n1 n2) d3).const_mul (r ^ 2)
    have d5 := d2.sub d4
    have hsq : √(1 - (x / r) ^ 2) = √(r ^ 2 - x ^ 2) / r := by
      have : 1 - (x / r) ^ 2 = (r ^ 2 - x ^ 2) / r ^ 2 := by field_simp
      rw [this, Real.sqrt_div hpos.le, Real.sqrt_sq hr.le]
    refine HasDerivAt.congr_deriv d5 ?_
    rw [hsq]
    have hss : √(r ^ 2 - x ^ 2) ^ 2 = r ^ 2 - x ^ 2 := Real.sq_sqrt hpos.le
    simp only [id]
    field_simp
    rw [hss]; ring
  have hc : ContinuousOn (fun x => x * √(r ^ 2 - x ^ 2) - r ^ 2 * Real.arccos (x / r)) (Icc e r) := by
    apply Continuous.continuousOn
    have := Real.continuous_arccos
    fun_prop
  have hi : IntervalIntegrable (fun x => 2 * √(r ^ 2 - x ^ 2)) volume e r := by
    apply Continuous.intervalIntegrable; fun_prop
  rw [intervalIntegral.integral_eq_sub_of_hasDerivAt_of_le h2 hc hF hi]
  simp [div_self hr.ne']

lemma cap_integral_left (r d e : ℝ) (hr : 0 < r) (h1 : -r ≤ d - e) (h2 : d - e ≤ r) :
    ∫ x in (d - r)..e, 2 * √(r ^ 2 - (d - x) ^ 2) = cap r (d - e) := by
  rw [← cap_integral r (d - e) hr h1 h2]
  have := intervalIntegral.integral_comp_sub_left (a := d - r) (b := e) (fun x => 2 * √(r ^ 2 - x ^ 2)) d
  simpa using this

lemma cap_nonneg (r e : ℝ) (hr : 0 < r) (h1 : -r ≤ e) (h2 : e ≤ r) : 0 ≤ cap r e := by
  rw [← cap_integral r e hr h1 h2]
  exact intervalIntegral.integral_nonneg h2 (fun x _ => by positivity)

lemma area_nonneg (r1 r2 d : ℝ) (hr1 : 0 < r1) (hr2 : 0 < r2) (hd : d < r1 + r2) (h12 : r1 - r2 < d) (h21 : r2 - r1 < d) :
    0 ≤ area r1 r2 d := by
  have hd0 : 0 < d := by linarith
  unfold area
  simp only
  set d1 := (r1 ^ 2 - r2 ^ 2 + d ^ 2) / (2 * d) with hd1
  have b1 : -r1 < d1 := by rw [hd1, lt_div_iff₀ (by linarith)]; nlinarith
  have b2 : d1 < r1 := by rw [hd1, div_lt_iff₀ (by linarith)]; nlinarith
  have b3 : d1 < d + r2 := by rw [hd1, div_lt_iff₀ (by linarith)]; nlinarith
  have b4 : d - r2 < d1 := by rw [hd1, lt_div_iff₀ (by linarith)]; nlinarith
  exact add_nonneg (cap_nonneg r1 d1 hr1 b1.le b2.le) (cap_nonneg r2 _ hr2 (by linarith) (by linarith))

/-- The two discs in real coordinates, overlapping but none inside the other. -/
lemma lens (r1 r2 d : ℝ) (hr1 : 0 < r1) (hr2 : 0 < r2) (hd : d < r1 + r2) (h12 : r1 - r2 < d) (h21 : r2 - r1 < d) :
    volume {p : ℝ × ℝ | p.1 ^ 2 + p.2 ^ 2 < r1 ^ 2 ∧ (d - p.1) ^ 2 + p.2 ^ 2 < r2 ^ 2} = ENNReal.ofReal (area r1 r2 d) := by
  have hd0 : 0 < d := by linarith
  set d1 := (r1 ^ 2 - r2 ^ 2 + d ^ 2) / (2 * d) with hd1
  have e1 : d1 * (2 * d) = r1 ^ 2 - r2 ^ 2 + d ^ 2 := by rw [hd1]; field_simp
  have b1 : -r1 < d1 := by rw [hd1, lt_div_iff₀ (by linarith)]; nlinarith
  have b2 : d1 < r1 := by rw [hd1, div_lt_iff₀ (by linarith)]; nlinarith
  have b3 : -r2 < d - d1 := by
    have : d1 < d + r2 := by rw [hd1, div_lt_iff₀ (by linarith)]; nlinarith
    linarith
  have b4 : d - d1 < r2 := by
    have : d - r2 < d1 := by rw [hd1, lt_div_iff₀ (by linarith)]; nlinarith
    linarith
  set f : ℝ → ℝ := fun x => min √(r1 ^ 2 - x ^ 2) √(r2 ^ 2 - (d - x) ^ 2) with hf
  have hfc : Continuous f := by rw [hf]; fun_prop
  have hset : {p : ℝ × ℝ | p.1 ^ 2 + p.2 ^ 2 < r1 ^ 2 ∧ (d - p.1) ^ 2 + p.2 ^ 2 < r2 ^ 2}
      = regionBetween (-f) f (Ioc (d - r2) r1) := by
    ext ⟨x, y⟩
    simp only [mem_ofPred_eq, regionBetween, mem_Ioc, mem_Ioo, Pi.neg_apply]
    have a1 : x ^ 2 + y ^ 2 < r1 ^ 2 ↔ (-√(r1 ^ 2 - x ^ 2) < y ∧ y < √(r1 ^ 2 - x ^ 2)) := by
      rw [← Real.sq_lt]; constructor <;> intro h <;> linarith
    have a2 : (d - x) ^ 2 + y ^ 2 < r2 ^ 2 ↔ (-√(r2 ^ 2 - (d - x) ^ 2) < y ∧ y < √(r2 ^ 2 - (d - x) ^ 2)) := by
      rw [← Real.sq_lt]; constructor <;> intro h <;> linarith
    constructor
    · rintro ⟨h1, h2⟩
      refine ⟨⟨?_, ?_⟩, ?_, ?_⟩
      · have : (d - x) ^ 2 < r2 ^ 2 := by nlinarith [sq_nonneg y]
        have := (abs_lt_of_sq_lt_sq' this hr2.le).2; linarith
      · have : x ^ 2 < r1 ^ 2 := by nlinarith [sq_nonneg y]
        exact (abs_lt_of_sq_lt_sq' this hr1.le).2.le
      · have c1 := (a1.1 h1).1; have c2 := (a2.1 h2).1
        have : -y < f x := by rw [hf]; exact lt_min (by linarith) (by linarith)
        linarith
      · exact lt_min (a1.1 h1).2 (a2.1 h2).2
    · rintro ⟨-, h1, h2⟩
      have c1 := min_le_left √(r1 ^ 2 - x ^ 2) √(r2 ^ 2 - (d - x) ^ 2)
      have c2 := min_le_right √(r1 ^ 2 - x ^ 2) √(r2 ^ 2 - (d - x) ^ 2)
      rw [hf] at h1 h2
      simp only at h1 h2
      exact ⟨a1.2 ⟨by linarith, by linarith⟩, a2.2 ⟨by linarith, by linarith⟩⟩
  have hint : IntegrableOn f (Ioc (d - r2) r1) volume :=
    (hfc.integrableOn_Icc (a := d - r2) (b := r1)).mono_set Ioc_subset_Icc_self
  have hfn : ∀ x, 0 ≤ f x := fun x => le_min (Real.sqrt_nonneg _) (Real.sqrt_nonneg _)
  rw [hset, Measure.volume_eq_prod, volume_regionBetween_eq_integral hint.neg hint measurableSet_Ioc
    (fun x _ => by have := hfn x; simp only [Pi.neg_apply]; linarith)]
  congr 1
  have hle : d - r2 ≤ r1 := by linarith
  rw [← intervalIntegral.integral_of_le hle]
  have hfi : ∀ a b, IntervalIntegrable (f - -f) volume a b := by
    intro a b; apply Continuous.intervalIntegrable; exact hfc.sub hfc.neg
  rw [← intervalIntegral.integral_add_adjacent_intervals (hfi (d - r2) d1) (hfi d1 r1)]
  have p1 : ∫ x in (d - r2)..d1, (f - -f) x = cap r2 (d - d1) := by
    rw [← cap_integral_left r2 d d1 hr2 b3.le b4.le]
    apply intervalIntegral.integral_congr
    intro x hx
    rw [uIcc_of_le (by linarith)] at hx
    have : f x = √(r2 ^ 2 - (d - x) ^ 2) := by
      rw [hf]; apply min_eq_right; apply Real.sqrt_le_sqrt
      nlinarith [hx.2]
    simp only [Pi.sub_apply, Pi.neg_apply, this]; ring
  have p2 : ∫ x in d1..r1, (f - -f) x = cap r1 d1 := by
    rw [← cap_integral r1 d1 hr1 b1.le b2.le]
    apply intervalIntegral.integral_congr
    intro x hx
    rw [uIcc_of_le b2.le] at hx
    have : f x = √(r1 ^ 2 - x ^ 2) := by
      rw [hf]; apply min_eq_left; apply Real.sqrt_le_sqrt
      nlinarith [hx.1]
    simp only [Pi.sub_apply, Pi.neg_apply, this]; ring
  rw [p1, p2]
  unfold area
  simp only
  rw [← hd1]; ring

/-- Discs on the real axis of the complex plane. -/
lemma lens_complex (r1 r2 d : ℝ) (hr1 : 0 < r1) (hr2 : 0 < r2) (hd : d < r1 + r2) (h12 : r1 - r2 < d) (h21 : r2 - r1 < d) :
    volume (Metric.ball (0 : ℂ) r1 ∩ Metric.ball (d : ℂ) r2) = ENNReal.ofReal (area r1 r2 d) := by
  rw [← lens r1 r2 d hr1 hr2 hd h12 h21,
    ← Complex.volume_preserving_equiv_real_prod.measure_preimage_equiv]
  congr 1
  ext z
  simp only [mem_inter_iff, Metric.mem_ball, mem_preimage, mem_ofPred_eq, Complex.measurableEquivRealProd_apply]
  have k1 : dist z 0 < r1 ↔ z.re ^ 2 + z.im ^ 2 < r1 ^ 2 := by
    rw [dist_zero_right, ← sq_lt_sq₀ (norm_nonneg _) hr1.le, Complex.sq_norm, Complex.normSq_apply]
    constructor <;> intro h <;> linarith
  have k2 : dist z d < r2 ↔ (d - z.re) ^ 2 + z.im ^ 2 < r2 ^ 2 := by
    rw [dist_eq_norm, ← sq_lt_sq₀ (norm_nonneg _) hr2.le, Complex.sq_norm, Complex.normSq_apply]
    simp only [Complex.sub_re, Complex.sub_im, Complex.ofReal_re, Complex.ofReal_im]
    constructor <;> intro h <;> linarith
  rw [k1, k2]

/-- Moving two centres to `0` and to their distance on the real axis. -/
lemma move (c1 c2 : ℂ) (r1 r2 : ℝ) :
    volume (Metric.ball c1 r1 ∩ Metric.ball c2 r2)
      = volume (Metric.ball (0 : ℂ) r1 ∩ Metric.ball ((dist c1 c2 : ℝ) : ℂ) r2) := by
  by_cases hc : c1 = c2
  · subst hc
    rw [← measure_preimage_add volume c1]
    congr 1
    ext z
    simp [Metric.mem_ball, dist_eq_norm]
  · have hne : dist c1 c2 ≠ 0 := dist_ne_zero.2 hc
    obtain ⟨u, hu⟩ : ∃ u : Circle, (u : ℂ) * (dist c1 c2 : ℝ) = c2 - c1 := by
      refine ⟨⟨(c2 - c1) / (dist c1 c2 : ℝ), ?_⟩, ?_⟩
      · refine mem_sphere_zero_iff_norm.2 ?_
        rw [norm_div, Complex.norm_real, Real.norm_eq_abs, abs_of_nonneg dist_nonneg,
          dist_comm, dist_eq_norm, div_self]
        rw [dist_comm, dist_eq_norm] at hne; exact hne
      · change (c2 - c1) / (dist c1 c2 : ℝ) * (dist c1 c2 : ℝ) = c2 - c1
        rw [div_mul_cancel₀]; exact_mod_cast hne
    rw [← measure_preimage_add volume c1, ← (LinearIsometryEquiv.measurePreserving (rotation u)).measure_preimage]
    · congr 1
      ext z
      simp only [mem_preimage, mem_inter_iff, Metric.mem_ball, rotation_apply]
      have k1 : dist (c1 + u * z) c1 = dist z 0 := by
        rw [dist_eq_norm, dist_eq_norm, add_sub_cancel_left, norm_mul, Circle.norm_coe, one_mul, sub_zero]
      have k2 : dist (c1 + u * z) c2 = dist z (dist c1 c2 : ℝ) := by
        have : c1 + u * z - c2 = u * (z - (dist c1 c2 : ℝ)) := by rw [mul_sub, hu]; ring
        rw [dist_eq_norm, dist_eq_norm, this, norm_mul, Circle.norm_coe, one_mul]
      rw [k1, k2]
    · have : MeasurableSet (Metric.ball c1 r1 ∩ Metric.ball c2 r2) := Metric.isOpen_ball.measurableSet.inter Metric.isOpen_ball.measurableSet
      exact (measurable_const_add c1 this).nullMeasurableSet

lemma disc (c : ℂ) (r : ℝ) (hr : 0 ≤ r) : volume.real (Metric.ball c r) = Real.pi * r ^ 2 := by
  rw [Measure.real, Complex.volume_ball, ENNReal.toReal_mul, ENNReal.toReal_pow, ENNReal.toReal_ofReal hr]
  simp only [ENNReal.coe_toReal, NNReal.coe_real_pi]; ring

lemma area_comm (r1 r2 d : ℝ) (hd : d ≠ 0) : area r1 r2 d = area r2 r1 d := by
  unfold area
  have h : d - (r1 ^ 2 - r2 ^ 2 + d ^ 2) / (2 * d) = (r2 ^ 2 - r1 ^ 2 + d ^ 2) / (2 * d) := by field_simp; ring
  have h' : d - (r2 ^ 2 - r1 ^ 2 + d ^ 2) / (2 * d) = (r1 ^ 2 - r2 ^ 2 + d ^ 2) / (2 * d) := by field_simp; ring
  simp only [h, h']; ring

/-- **C28.** `calc_area(r1, r2, d)` is the area (Lebesgue measure of the plane) of the intersection of any two
discs with radii `r1`, `r2` and distance `d` of the centres. -/
theorem C28_calc_area_is_overlap_area (c1 c2 : ℂ) (r1 r2 : ℝ) (hr1 : 0 ≤ r1) (hr2 : 0 ≤ r2) :
    calcArea r1 r2 (dist c1 c2) = volume.real (Metric.ball c1 r1 ∩ Metric.ball c2 r2) := by
  have hd := dist_nonneg (x := c1) (y := c2)
  unfold calcArea
  split_ifs with h0 h1 h2 h3
  · rw [inter_eq_right.2 (Metric.ball_subset_ball' (by rw [dist_comm]; linarith)), disc _ _ hr2]
  · have hr2' : 0 < r2 := by
      by_contra h
      have : r2 = 0 := le_antisymm (not_lt.1 h) hr2
      subst this; push Not at h2; linarith
    rw [Measure.real, move, lens_complex r1 r2 _ (by linarith) hr2' h0 (by linarith) (by linarith), ENNReal.toReal_ofReal]
    exact area_nonneg r1 r2 _ (by linarith) hr2' h0 (by linarith) (by linarith)
  · rw [inter_eq_left.2 (Metric.ball_subset_ball' (by linarith)), disc _ _ hr1]
  · have hr1' : 0 < r1 := by
      by_contra h
      have : r1 = 0 := le_antisymm (not_lt.1 h) hr1
      subst this; linarith
    rw [area_comm _ _ _ (by linarith), Measure.real, move, lens_complex r1 r2 _ hr1' (by linarith) h0 (by linarith) (by linarith), ENNReal.toReal_ofReal]
    exact area_nonneg r1 r2 _ hr1' (by linarith) h0 (by linarith) (by linarith)
  · rw [disjoint_iff_inter_eq_empty.1 (Metric.ball_disjoint_ball (by linarith))]; simp

end Foxes.Props.Circles
