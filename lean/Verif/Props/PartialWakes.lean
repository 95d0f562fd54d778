import Verif.Model.PartialWakes
import Verif.Props.Circles
import Mathlib.Tactic.Linarith
import Mathlib.Tactic.Positivity
import Mathlib.Tactic.NormNum
import Mathlib.Tactic.FieldSimp
import Mathlib.Tactic.GCongr
/-
C29: partial wakes.
-/
namespace Foxes.Props.PartialWakes
open Foxes.Circles Foxes.PartialWakes Foxes.Props.Circles MeasureTheory Set

/-- Specification: the fraction of a disc (`c`, `r`) covered by the disc (`c'`, `r'`). -/
noncomputable def coveredFraction (c : ℂ) (r : ℝ) (c' : ℂ) (r' : ℝ) : ℝ :=
  volume.real (Metric.ball c r ∩ Metric.ball c' r') / volume.real (Metric.ball c r)

lemma covered_bounds (c : ℂ) (r : ℝ) (c' : ℂ) (r' : ℝ) : 0 ≤ coveredFraction c r c' r' ∧ coveredFraction c r c' r' ≤ 1 := by
  unfold coveredFraction
  refine ⟨by positivity, div_le_one_of_le₀ ?_ (by positivity)⟩
  exact measureReal_mono inter_subset_left (measure_ball_lt_top.ne)

/-- **C29 (top hat).** For every wake with positive `ct` at a positive distance downstream, the weight of the wake is the covered fraction
of a disc with the diameter of the *wake causing* turbine. In particular it lies in `[0, 1]`. -/
theorem C29_top_hat_partial (ct x dSrc wr : ℝ) (c c' : ℂ) (hct : ct > 1e-8) (hx : x > 1e-8) (hD : 0 < dSrc) (hw : 0 < wr) :
    topHatWeight ct x dSrc wr (dist c c') = coveredFraction c (dSrc / 2) c' wr ∧
    0 ≤ topHatWeight ct x dSrc wr (dist c c') ∧ topHatWeight ct x dSrc wr (dist c c') ≤ 1 := by
  have e : topHatWeight ct x dSrc wr (dist c c') = coveredFraction c (dSrc / 2) c' wr := by
    unfold topHatWeight coveredFraction
    by_cases h : wr > dist c c' - dSrc / 2
    · rw [if_pos ⟨⟨hct, hx⟩, h⟩, C28_calc_area_is_overlap_area c c' _ _ (by linarith) hw.le, disc _ _ (by linarith)]
    · rw [if_neg (fun hc => h hc.2), disjoint_iff_inter_eq_empty.1 (Metric.ball_disjoint_ball (by linarith))]
      simp
  exact ⟨e, by rw [e]; exact (covered_bounds _ _ _ _).1, by rw [e]; exact (covered_bounds _ _ _ _).2⟩

/-- The missing part: if the rotor diameters differ, the weight is not the covered fraction of the target rotor. For every target larger
than the wake, on the wake axis, behind a turbine not larger than its wake, the weight is 1 although a part of the target rotor is outside
the wake. -/
theorem C29_top_hat_wrong_diameter (ct x dSrc dTgt wr : ℝ) (c : ℂ) (hct : ct > 1e-8) (hx : x > 1e-8) (hD : 0 < dSrc)
    (h1 : dSrc / 2 ≤ wr) (h2 : wr < dTgt / 2) :
    topHatWeight ct x dSrc wr (dist c c) = 1 ∧ coveredFraction c (dTgt / 2) c wr < 1 := by
  have hw : 0 < wr := by linarith
  have hp := Real.pi_pos
  have ht : 0 < dTgt := by linarith
  constructor
  · rw [(C29_top_hat_partial ct x dSrc wr c c hct hx hD hw).1, coveredFraction, inter_eq_left.2 (Metric.ball_subset_ball h1), disc _ _ (by linarith)]
    exact div_self (by positivity)
  · rw [coveredFraction, inter_eq_right.2 (Metric.ball_subset_ball h2.le), disc _ _ hw.le, disc _ _ (by linarith), div_lt_one (by positivity)]
    gcongr

example : (126 : ℝ) / 2 ≤ 70 ∧ (70 : ℝ) < 240 / 2 := by norm_num

/-! Rings of `PartialAxiwake`. -/

lemma calcArea_mono (R r1 a b : ℝ) (hR : 0 ≤ R) (hr : 0 ≤ r1) (ha : 0 ≤ a) (hab : a ≤ b) : calcArea r1 a R ≤ calcArea r1 b R := by
  have e : dist (0 : ℂ) (R : ℂ) = R := by rw [dist_zero_left, Complex.norm_real, Real.norm_of_nonneg hR]
  rw [← e, C28_calc_area_is_overlap_area _ _ _ _ hr ha, C28_calc_area_is_overlap_area _ _ _ _ hr (ha.trans hab)]
  exact measureReal_mono (inter_subset_inter_right _ (Metric.ball_subset_ball hab)) (measure_ne_top_of_subset inter_subset_left measure_ball_lt_top.ne)

lemma calcArea_zero (R r : ℝ) (hR : 0 ≤ R) (hr : 0 ≤ r) : calcArea r 0 R = 0 := by
  have e : dist (0 : ℂ) (R : ℂ) = R := by rw [dist_zero_left, Complex.norm_real, Real.norm_of_nonneg hR]
  rw [← e, C28_calc_area_is_overlap_area _ _ _ _ hr le_rfl]; simp

lemma calcArea_full (R r1 b : ℝ) (hR : 0 ≤ R) (hr : 0 ≤ r1) (hb : R + r1 ≤ b) : calcArea r1 b R = Real.pi * r1 ^ 2 := by
  have e : dist (0 : ℂ) (R : ℂ) = R := by rw [dist_zero_left, Complex.norm_real, Real.norm_of_nonneg hR]
  have : calcArea r1 b R = calcArea r1 b (dist (0 : ℂ) (R : ℂ)) := by rw [e]
  rw [this, C28_calc_area_is_overlap_area _ _ _ _ hr (by linarith), inter_eq_left.2 (Metric.ball_subset_ball' (by rw [e]; linarith)), disc _ _ hr]

lemma innerRadius_nonneg (n : ℕ) (hn : 1 ≤ n) (D R : ℝ) (hD : 0 < D) (hR : 0 ≤ R) (i : ℕ) : 0 ≤ innerRadius n D R i := by
  have : (1 : ℝ) ≤ n := by exact_mod_cast hn
  have h2 : (0 : ℝ) < n - 1 / 2 := by linarith
  unfold innerRadius
  split_ifs <;> positivity

lemma innerRadius_mono (n : ℕ) (hn : 1 ≤ n) (D R : ℝ) (hD : 0 < D) (hR : 0 ≤ R) (i : ℕ) : innerRadius n D R i ≤ innerRadius n D R (i + 1) := by
  by_cases h : i = 0
  · subst h
    have := innerRadius_nonneg n hn D R hD hR 1
    simpa [innerRadius] using this
  · have h1 : (1 : ℝ) ≤ n := by exact_mod_cast hn
    have h2 : (0 : ℝ) < n - 1 / 2 := by linarith
    unfold innerRadius
    rw [if_neg h, if_neg (by omega)]
    have : ((i - 1 : ℕ) : ℝ) ≤ ((i + 1 - 1 : ℕ) : ℝ) := by exact_mod_cast (by omega)
    gcongr

lemma innerRadius_last (n : ℕ) (hn : 1 ≤ n) (D R : ℝ) : innerRadius n D R n = R + D / 2 := by
  have h1 : (1 : ℝ) ≤ n := by exact_mod_cast hn
  have h2 : (n : ℝ) - 1 / 2 ≠ 0 := by linarith
  unfold innerRadius
  rw [if_neg (by omega), Nat.cast_sub hn]
  push_cast
  have : (1 / 2 + ((n : ℝ) - 1)) = n - 1 / 2 := by ring
  rw [this, div_mul_cancel₀ _ h2]

/-- what the ring area means -/
lemma inner_cum (n : ℕ) (_hn : 1 ≤ n) (D R : ℝ) (hD : 0 < D) (hR : 0 ≤ R) (i : ℕ) :
    calcArea (innerRotor D i) (innerRadius n D R i) R = calcArea (D / 2) (innerRadius n D R i) R := by
  by_cases h : i = 0
  · subst h
    simp only [innerRotor, innerRadius, if_true]
    rw [calcArea_zero R 0 hR le_rfl, calcArea_zero R (D / 2) hR (by linarith)]
  · simp [innerRotor, h]

lemma inner_sum (n : ℕ) (hn : 1 ≤ n) (D R : ℝ) (hD : 0 < D) (hR : 0 ≤ R) :
    ∑ j ∈ Finset.range n, innerArea n D R j = Real.pi * (D / 2) ^ 2 := by
  have := Finset.sum_range_sub (fun i => calcArea (innerRotor D i) (innerRadius n D R i) R) n
  simp only [innerArea]
  rw [this, inner_cum n hn D R hD hR, inner_cum n hn D R hD hR, innerRadius_last n hn,
    calcArea_full R (D / 2) _ hR (by linarith) le_rfl]
  simp only [innerRadius, if_true]
  rw [calcArea_zero R (D / 2) hR (by linarith), sub_zero]

lemma outerRadius_mono (n : ℕ) (hn : 1 ≤ n) (D R : ℝ) (hD : 0 < D) (i : ℕ) : outerRadius n D R i ≤ outerRadius n D R (i + 1) := by
  have h1 : (0 : ℝ) < n := by exact_mod_cast hn
  unfold outerRadius
  push_cast
  gcongr
  linarith

lemma outerRadius_nonneg (n : ℕ) (D R : ℝ) (hD : 0 < D) (hR : D / 2 < R) (i : ℕ) : 0 ≤ outerRadius n D R i := by
  unfold outerRadius
  have : 0 ≤ D * ((i : ℝ) / n) := by positivity
  nlinarith

lemma outerRadius_last (n : ℕ) (hn : 1 ≤ n) (D R : ℝ) : outerRadius n D R n = R + D / 2 := by
  have h1 : (n : ℝ) ≠ 0 := by have : (0 : ℝ) < n := by exact_mod_cast hn
                              linarith
  unfold outerRadius
  rw [div_self h1]; ring

lemma outer_sum (n : ℕ) (hn : 1 ≤ n) (D R : ℝ) (hD : 0 < D) (hR : D / 2 < R) :
    ∑ j ∈ Finset.range n, outerArea n D R j = Real.pi * (D / 2) ^ 2 + n * 1e-15 := by
  have := Finset.sum_range_sub (fun i => calcArea (D / 2) (outerRadius n D R i) R) n
  simp only [outerArea]
  rw [Finset.sum_add_distrib, this, outerRadius_last n hn, calcArea_full R (D / 2) _ (by linarith) (by linarith) le_rfl]
  have h0 : calcArea (D / 2) (outerRadius n D R 0) R = 0 := by
    unfold calcArea outerRadius
    rw [if_neg (by simp; linarith)]
  rw [h0]; simp

lemma outerArea_pos (n : ℕ) (hn : 1 ≤ n) (D R : ℝ) (hD : 0 < D) (hR : D / 2 < R) (i : ℕ) : 0 < outerArea n D R i := by
  have := calcArea_mono R (D / 2) _ _ (by linarith) (by linarith) (outerRadius_nonneg n D R hD hR i) (outerRadius_mono n hn D R hD i)
  unfold outerArea; norm_num; linarith

lemma innerArea_nonneg (n : ℕ) (hn : 1 ≤ n) (D R : ℝ) (hD : 0 < D) (hR : 0 ≤ R) (i : ℕ) : 0 ≤ innerArea n D R i := by
  unfold innerArea
  rw [inner_cum n hn D R hD hR, inner_cum n hn D R hD hR]
  have := calcArea_mono R (D / 2) _ _ hR (by linarith) (innerRadius_nonneg n hn D R hD hR i) (innerRadius_mono n hn D R hD hR i)
  linarith

/-- **C29 (axisymmetric).** For every number of evaluation radii, every distance `R ≠ D/2` of rotor centre and wake axis and every point
downstream, the weights of the radii are not negative and sum to one: the rotor disc is fully accounted for. -/
theorem C29_axiwake_weights_partial (n : ℕ) (hn : 1 ≤ n) (x D R : ℝ) (hx : x > 1e-8) (hD : 0 < D) (hR : 0 ≤ R) (hne : R ≠ D / 2) :
    (∀ i < n, 0 ≤ axiWeight n x D R i) ∧ ∑ i ∈ Finset.range n, axiWeight n x D R i = 1 := by
  have hp := Real.pi_pos
  have hx0 : x > 0 := by norm_num at hx ⊢; linarith
  by_cases h : R < D / 2
  · have e : ∀ i, axiWeight n x D R i = innerArea n D R i / (Real.pi * (D / 2) ^ 2) := fun i => by
      unfold axiWeight; rw [if_pos ⟨hx0, h⟩, inner_sum n hn D R hD hR]
    simp only [e]
    refine ⟨fun i _ => div_nonneg (innerArea_nonneg n hn D R hD hR i) (by positivity), ?_⟩
    rw [← Finset.sum_div, inner_sum n hn D R hD hR]
    exact div_self (by positivity)
  · have h' : D / 2 < R := lt_of_le_of_ne (not_lt.1 h) (Ne.symm hne)
    have e : ∀ i, axiWeight n x D R i = outerArea n D R i / (Real.pi * (D / 2) ^ 2 + n * 1e-15) := fun i => by
      unfold axiWeight; rw [if_neg (fun hc => h hc.2), if_pos ⟨hx, h'⟩, outer_sum n hn D R hD h']
    simp only [e]
    refine ⟨fun i _ => div_nonneg (outerArea_pos n hn D R hD h' i).le (by positivity), ?_⟩
    rw [← Finset.sum_div, outer_sum n hn D R hD h']
    exact div_self (by positivity)

/-- **C29 (axisymmetric, meaning of the weights).** If the wake axis hits the rotor disc, the weight of radius `i` is the fraction of the
disc (diameter of the wake causing turbine) whose distance to the wake axis lies between `innerRadius i` and `innerRadius (i+1)`, two
consecutive radii of an increasing sequence that starts at 0 and ends at the outermost point of the disc; the evaluation radius lies in
between. -/
theorem C29_axiwake_rings (n : ℕ) (hn : 1 ≤ n) (x D : ℝ) (c c' : ℂ) (hx : x > 1e-8) (hD : 0 < D) (hR : dist c c' < D / 2) (i : ℕ) :
    axiWeight n x D (dist c c') i =
      coveredFraction c (D / 2) c' (innerRadius n D (dist c c') (i + 1)) - coveredFraction c (D / 2) c' (innerRadius n D (dist c c') i) ∧
    innerRadius n D (dist c c') 0 = 0 ∧ innerRadius n D (dist c c') n = dist c c' + D / 2 ∧
    innerRadius n D (dist c c') i ≤ axiRadius n x D (dist c c') i ∧
    axiRadius n x D (dist c c') i ≤ innerRadius n D (dist c c') (i + 1) := by
  have hR0 := dist_nonneg (x := c) (y := c')
  have hx0 : x > 0 := by norm_num at hx ⊢; linarith
  have r0 := innerRadius_nonneg n hn D _ hD hR0
  have rm := innerRadius_mono n hn D _ hD hR0 i
  refine ⟨?_, by simp [innerRadius], innerRadius_last n hn D _, ?_, ?_⟩
  · unfold axiWeight
    rw [if_pos ⟨hx0, hR⟩, inner_sum n hn D _ hD hR0]
    unfold coveredFraction
    rw [← C28_calc_area_is_overlap_area c c' _ _ (by linarith) (r0 _), ← C28_calc_area_is_overlap_area c c' _ _ (by linarith) (r0 _),
      disc _ _ (by linarith)]
    unfold innerArea
    rw [inner_cum n hn D _ hD hR0, inner_cum n hn D _ hD hR0, sub_div]
  · unfold axiRadius
    rw [if_pos ⟨hx0, hR⟩]
    split_ifs with h
    · subst h; simp [innerRadius]
    · linarith
  · unfold axiRadius
    rw [if_pos ⟨hx0, hR⟩]
    split_ifs with h
    · exact r0 _
    · linarith

/-- **C29 (axisymmetric, evaluation radii).** The wake is evaluated in the middle of the rings. If the wake axis hits the disc, these are
equidistant radii starting on the axis, the last one half a step before the outermost point; otherwise they are the midpoints of `n`
equal parts of the interval from the nearest to the outermost point of the disc. -/
theorem C29_axiwake_radii (n : ℕ) (hn : 1 ≤ n) (x D R : ℝ) (hx : x > 1e-8) (i : ℕ) :
    (R < D / 2 → axiRadius n x D R i = i * ((R + D / 2) / (n - 1 / 2))) ∧
    (D / 2 < R → axiRadius n x D R i = R - D / 2 + (i + 1 / 2) * (D / n)) := by
  have hx0 : x > 0 := by norm_num at hx ⊢; linarith
  have hn' : (1 : ℝ) ≤ n := by exact_mod_cast hn
  constructor
  · intro h
    unfold axiRadius
    rw [if_pos ⟨hx0, h⟩]
    cases i with
    | zero => simp
    | succ i =>
      unfold innerRadius
      simp only [Nat.add_one_sub_one, Nat.add_eq_zero_iff, one_ne_zero, and_false, if_false]
      push_cast
      ring
  · intro h
    unfold axiRadius outerRadius
    rw [if_neg (fun hc => lt_asymm h hc.2), if_pos ⟨hx, h⟩]
    push_cast
    have : (n : ℝ) ≠ 0 := by linarith
    field_simp
    ring

/-- **C29 (axisymmetric, uniform wakes and bounds).** A wake that is constant over the rotor gives that constant, and the result always
lies between bounds of the profile. -/
theorem C29_axiwake_mean_partial (n : ℕ) (hn : 1 ≤ n) (x D R : ℝ) (hx : x > 1e-8) (hD : 0 < D) (hR : 0 ≤ R) (hne : R ≠ D / 2)
    (f : ℝ → ℝ) (lo hi : ℝ) (hlo : ∀ r, lo ≤ f r) (hhi : ∀ r, f r ≤ hi) :
    lo ≤ axiDelta n x D R f ∧ axiDelta n x D R f ≤ hi := by
  obtain ⟨h0, h1⟩ := C29_axiwake_weights_partial n hn x D R hx hD hR hne
  unfold axiDelta
  constructor
  · calc lo = ∑ i ∈ Finset.range n, lo * axiWeight n x D R i := by rw [← Finset.mul_sum, h1, mul_one]
      _ ≤ _ := Finset.sum_le_sum (fun i hi => mul_le_mul_of_nonneg_right (hlo _) (h0 i (Finset.mem_range.1 hi)))
  · calc _ ≤ ∑ i ∈ Finset.range n, hi * axiWeight n x D R i :=
          Finset.sum_le_sum (fun i hi' => mul_le_mul_of_nonneg_right (hhi _) (h0 i (Finset.mem_range.1 hi')))
      _ = hi := by rw [← Finset.mul_sum, h1, mul_one]

/-- **C29 (axisymmetric, result).** If the wake axis hits the rotor disc, every rotor point gets the sum of the profile at the `n`
equidistant radii starting on the axis, each times the fraction of the disc between the two ring radii around it. If the wake axis misses
the disc, it gets the sum of the profile in the middle of `n` rings of width `D/n`, each times the area of the disc in that ring, up to
the `1e-15` that the code adds to each area. -/
theorem C29_axiwake_delta_partial (n : ℕ) (hn : 1 ≤ n) (x D : ℝ) (c c' : ℂ) (hx : x > 1e-8) (hD : 0 < D) (f : ℝ → ℝ) :
    (dist c c' < D / 2 → axiDelta n x D (dist c c') f =
      ∑ i ∈ Finset.range n, f (i * ((dist c c' + D / 2) / (n - 1 / 2))) *
        (coveredFraction c (D / 2) c' (innerRadius n D (dist c c') (i + 1)) -
          coveredFraction c (D / 2) c' (innerRadius n D (dist c c') i))) ∧
    (D / 2 < dist c c' → axiDelta n x D (dist c c') f =
      ∑ i ∈ Finset.range n, f (dist c c' - D / 2 + (i + 1 / 2) * (D / n)) *
        (((coveredFraction c (D / 2) c' (dist c c' - D / 2 + (i + 1) * (D / n)) -
          coveredFraction c (D / 2) c' (dist c c' - D / 2 + i * (D / n))) * (Real.pi * (D / 2) ^ 2) + 1e-15) /
            (Real.pi * (D / 2) ^ 2 + n * 1e-15))) := by
  have hn' : (n : ℝ) ≠ 0 := by positivity
  have hp := Real.pi_pos
  constructor
  · intro h
    unfold axiDelta
    refine Finset.sum_congr rfl (fun i _ => ?_)
    rw [(C29_axiwake_radii n hn x D _ hx i).1 h, (C29_axiwake_rings n hn x D c c' hx hD h i).1]
  · intro h
    unfold axiDelta
    refine Finset.sum_congr rfl (fun i _ => ?_)
    rw [(C29_axiwake_radii n hn x D _ hx i).2 h]
    congr 1
    unfold axiWeight
    rw [if_neg (fun hc => lt_asymm h hc.2), if_pos ⟨hx, h⟩, outer_sum n hn D _ hD h]
    congr 1
    have e : ∀ k : ℕ, outerRadius n D (dist c c') k = dist c c' - D / 2 + k * (D / n) := fun k => by
      unfold outerRadius; field_simp; ring
    have r0 := outerRadius_nonneg n D _ hD h
    unfold outerArea coveredFraction
    rw [show dist c c' - D / 2 + ((i : ℝ) + 1) * (D / n) = outerRadius n D (dist c c') (i + 1) by rw [e]; push_cast; ring, ← e i,
      ← C28_calc_area_is_overlap_area c c' _ _ (by linarith) (r0 _), ← C28_calc_area_is_overlap_area c c' _ _ (by linarith) (r0 _),
      disc _ _ (by linarith)]
    have : Real.pi * (D / 2) ^ 2 ≠ 0 := by positivity
    field_simp

/-- **C29 (axisymmetric, finding).** If the wake axis touches the rim of the rotor disc, `R = D/2`, all weights are zero and the wake is
dropped, whatever its profile. -/
theorem C29_axiwake_rim_lost (n : ℕ) (x D : ℝ) (f : ℝ → ℝ) : axiDelta n x D (D / 2) f = 0 := by
  unfold axiDelta axiWeight
  simp

/-- **C29 (segregated).** All rotor points get the same delta, which lies between the smallest and the largest delta at the grid points,
if the grid weights are not negative and sum to one (see C30). -/
theorem C29_segregated (n : ℕ) (g delta : ℕ → ℝ) (lo hi : ℝ) (h0 : ∀ p < n, 0 ≤ g p) (h1 : ∑ p ∈ Finset.range n, g p = 1)
    (hlo : ∀ p < n, lo ≤ delta p) (hhi : ∀ p < n, delta p ≤ hi) (q q' : ℕ) :
    segregatedDelta n g delta q = segregatedDelta n g delta q' ∧ lo ≤ segregatedDelta n g delta q ∧ segregatedDelta n g delta q ≤ hi := by
  refine ⟨rfl, ?_, ?_⟩ <;> unfold segregatedDelta
  · calc lo = ∑ p ∈ Finset.range n, lo * g p := by rw [← Finset.mul_sum, h1, mul_one]
      _ ≤ _ := Finset.sum_le_sum (fun p hp => mul_le_mul_of_nonneg_right (hlo p (Finset.mem_range.1 hp)) (h0 p (Finset.mem_range.1 hp)))
  · calc _ ≤ ∑ p ∈ Finset.range n, hi * g p :=
          Finset.sum_le_sum (fun p hp => mul_le_mul_of_nonneg_right (hhi p (Finset.mem_range.1 hp)) (h0 p (Finset.mem_range.1 hp)))
      _ = hi := by rw [← Finset.mul_sum, h1, mul_one]

example : 1 ≤ 6 ∧ (500 : ℝ) > 1e-8 ∧ (0 : ℝ) < 126 ∧ (0 : ℝ) ≤ 40 ∧ (40 : ℝ) ≠ 126 / 2 ∧ dist (0 : ℂ) 40 < 126 / 2 := by
  refine ⟨by norm_num, by norm_num, by norm_num, by norm_num, by norm_num, ?_⟩
  rw [dist_zero_left]; norm_num

end Foxes.Props.PartialWakes
