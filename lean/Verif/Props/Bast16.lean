import Verif.Model.Bast16
import Mathlib.Analysis.SpecialFunctions.Gaussian.GaussianIntegral
import Mathlib.Analysis.Real.Pi.Bounds
import Mathlib.Tactic.Ring
import Mathlib.Tactic.FieldSimp
import Mathlib.Tactic.Positivity
import Mathlib.Tactic.Linarith
/-
C60: the Bastankhah & Porté-Agel 2016 wake model.
-/
namespace Foxes.Props.Bast16
open Foxes.Bast16 Foxes.WakeModels

noncomputable section
open scoped Classical

/-- Specification: a turbine with thrust, in turbulent flow, with a yaw misalignment below 90 degrees, and an axial induction model for which the
flow through the rotor is not stopped: the induction is positive, grows with the thrust coefficient and is below 1/2 at the thrust of the turbine. -/
structure Valid (i : Inp) : Prop where
  D : 0 < i.D
  ct : 1e-8 < i.ct
  ct1 : i.ct ≤ 1
  ti : 0 < i.ti
  alpha : 0 < i.alpha
  beta : 0 ≤ i.beta
  k : 0 < i.k
  gamma : |i.gamma| < Real.pi / 2
  mono : Monotone i.a
  pos : ∀ c, 0 < c → 0 < i.a c
  half : i.a i.ct < 1 / 2

/-! ## Selection -/

/-- Nothing happens at targets that are not downstream, nor for turbines without thrust. -/
theorem C60_selection (i : Inp) (x y z : ℝ) (h : x ≤ 1e-8 ∨ i.ct ≤ 1e-8) : delta i x y z = none ∧ deflection i x = 0 := by
  have : ¬ (1e-8 < x ∧ 1e-8 < i.ct) := by rintro ⟨h1, h2⟩; rcases h with h | h <;> linarith
  simp [delta, deflection, this]

variable {i : Inp}

lemma ct_pos (h : Valid i) : 0 < i.ct := lt_trans (by norm_num) h.ct

lemma cos_pos (h : Valid i) : 0 < Real.cos i.gamma :=
  Real.cos_pos_of_mem_Ioo ⟨(abs_lt.1 h.gamma).1, (abs_lt.1 h.gamma).2⟩

lemma a_pos (h : Valid i) : 0 < i.a i.ct := h.pos _ (ct_pos h)

lemma den_pos (h : Valid i) : 0 < √2 * (4 * i.alpha * i.ti + i.beta * (2 * i.a i.ct)) := by
  have h1 := h.alpha; have h2 := h.ti; have h3 := h.beta; have h4 := a_pos h
  positivity

lemma x0_pos (h : Valid i) : 0 < x0 i := by
  have h1 := cos_pos h; have h2 := h.D; have h3 := h.half; have h4 := den_pos h
  have h5 : 0 < 2 - 2 * i.a i.ct := by linarith
  unfold x0; positivity

lemma sigY0_pos (h : Valid i) : 0 < sigY0 i := by
  have h1 := cos_pos h; have h2 := h.D
  unfold sigY0; positivity

lemma sigZ0_pos (h : Valid i) : 0 < sigZ0 i := by
  have h2 := h.D
  unfold sigZ0; positivity

lemma sig0_mul (i : Inp) : 8 * sigY0 i * sigZ0 i = Real.cos i.gamma * i.D ^ 2 := by
  unfold sigY0 sigZ0
  have h0 : √(8 : ℝ) ≠ 0 := by positivity
  field_simp
  rw [Real.sq_sqrt (by norm_num)]; ring

lemma sigY_ge (h : Valid i) {x : ℝ} (hx : x0 i ≤ x) : sigY0 i ≤ sigY i x := by
  have := h.k; unfold sigY; nlinarith

lemma sigZ_ge (h : Valid i) {x : ℝ} (hx : x0 i ≤ x) : sigZ0 i ≤ sigZ i x := by
  have := h.k; unfold sigZ; nlinarith

lemma sigYZ_pos (h : Valid i) {x : ℝ} (hx : x0 i ≤ x) : 0 < sigY i x * sigZ i x :=
  mul_pos (lt_of_lt_of_le (sigY0_pos h) (sigY_ge h hx)) (lt_of_lt_of_le (sigZ0_pos h) (sigZ_ge h hx))

lemma sigYZ_mono (h : Valid i) {x x' : ℝ} (hx : x0 i ≤ x) (hx' : x ≤ x') : sigY i x * sigZ i x ≤ sigY i x' * sigZ i x' := by
  have hk := h.k
  have h1 : sigY i x ≤ sigY i x' := by unfold sigY; nlinarith
  have h2 : sigZ i x ≤ sigZ i x' := by unfold sigZ; nlinarith
  exact mul_le_mul h1 h2 (le_trans (sigZ0_pos h).le (sigZ_ge h hx)) (le_trans (sigY0_pos h).le (le_trans (sigY_ge h hx) h1))

/-- the effective thrust coefficient of the far wake -/
lemma cte_props (h : Valid i) {x : ℝ} (hx : x0 i ≤ x) :
    0 < i.ct * Real.cos i.gamma * i.D ^ 2 / (8 * sigY i x * sigZ i x) ∧
    i.ct * Real.cos i.gamma * i.D ^ 2 / (8 * sigY i x * sigZ i x) ≤ i.ct := by
  have h1 := sigYZ_pos h hx
  have h2 := cos_pos h
  have h3 := h.D
  have h4 := ct_pos h
  have e : 8 * sigY i x * sigZ i x = 8 * (sigY i x * sigZ i x) := by ring
  rw [e]
  refine ⟨by positivity, ?_⟩
  rw [div_le_iff₀ (by positivity)]
  have := mul_le_mul (sigY_ge h hx) (sigZ_ge h hx) (sigZ0_pos h).le (le_trans (sigY0_pos h).le (sigY_ge h hx))
  have := sig0_mul i
  nlinarith

lemma ampl_eq (h : Valid i) {x : ℝ} (hx : x0 i ≤ x) :
    amplFar i x = -2 * i.a (i.ct * Real.cos i.gamma * i.D ^ 2 / (8 * sigY i x * sigZ i x)) := by
  have h1 := h.mono (cte_props h hx).2
  have h2 := h.half
  unfold amplFar
  apply max_eq_left
  linarith

/-- The relative wind speed deficit is between 0 and the one at the rotor, `2 a`, which is below 1. -/
theorem C60_bounds (h : Valid i) (x y z : ℝ) (hx : 1e-8 < x) :
    ∃ v, delta i x y z = some v ∧ -(2 * i.a i.ct) ≤ v ∧ v ≤ 0 ∧ -1 < v := by
  have ha := a_pos h
  have hh := h.half
  unfold delta
  rw [if_pos ⟨hx, h.ct⟩]
  by_cases hn : x < x0 i
  · rw [if_pos hn]
    refine ⟨_, rfl, ?_⟩
    have key : ∃ rf : ℝ, nearDelta i x y z = (1 - 2 * i.a i.ct - 1) * rf ∧ 0 ≤ rf ∧ rf ≤ 1 := by
      refine ⟨_, rfl, ?_, ?_⟩
      · split
        · exact zero_le_one
        · split_ifs
          · exact (Real.exp_pos _).le
          · exact zero_le_one
      · split
        · exact le_refl _
        · split_ifs
          · rw [Real.exp_le_one_iff]
            nlinarith [sq_nonneg ((√(y ^ 2 + z ^ 2) - ‹ℝ›) / (x / x0 i * sigY0 i))]
          · exact le_refl _
    obtain ⟨rf, e, h0, h1⟩ := key
    rw [e]
    refine ⟨by nlinarith, by nlinarith, by nlinarith⟩
  · rw [if_neg hn]
    push Not at hn
    refine ⟨_, rfl, ?_⟩
    obtain ⟨c0, c1⟩ := cte_props h hn
    have h1 := h.mono c1
    have h2 := h.pos _ c0
    unfold farDelta
    rw [ampl_eq h hn]
    set q := i.a (i.ct * Real.cos i.gamma * i.D ^ 2 / (8 * sigY i x * sigZ i x))
    have e0 := mul_pos (Real.exp_pos (-0.5 * (y / sigY i x) ^ 2)) (Real.exp_pos (-0.5 * (z / sigZ i x) ^ 2))
    have e1 : Real.exp (-0.5 * (y / sigY i x) ^ 2) * Real.exp (-0.5 * (z / sigZ i x) ^ 2) ≤ 1 := by
      rw [← Real.exp_add, Real.exp_le_one_iff]
      nlinarith [sq_nonneg (y / sigY i x), sq_nonneg (z / sigZ i x)]
    set g := Real.exp (-0.5 * (y / sigY i x) ^ 2) * Real.exp (-0.5 * (z / sigZ i x) ^ 2)
    refine ⟨by nlinarith, by nlinarith, by nlinarith⟩

/-! ## Symmetries -/

/-- Without yaw misalignment the wake is not deflected and depends only on the distance from the axis. -/
theorem C60_unyawed (i : Inp) (h : i.gamma = 0) (x y z y' z' : ℝ) (hr : y ^ 2 + z ^ 2 = y' ^ 2 + z' ^ 2) :
    deflection i x = 0 ∧ delta i x y z = delta i x y' z' := by
  have ht : theta i = 0 := by simp [theta, h]
  constructor
  · simp [deflection, deflFar, ht]
  · have hs : sigZ i x = sigY i x := by simp [sigZ, sigY, sigZ0, sigY0, h]
    have e1 : nearDelta i x y z = nearDelta i x y' z' := by unfold nearDelta; rw [hr]
    have e2 : farDelta i x y z = farDelta i x y' z' := by
      unfold farDelta
      rw [hs, ← Real.exp_add, ← Real.exp_add]
      congr 2
      rw [div_pow, div_pow, div_pow, div_pow, ← mul_add, ← mul_add, ← add_div, ← add_div, hr]
    unfold delta
    rw [e1, e2]

/-- Yawing to the other side leaves the wake shape unchanged and deflects the wake by the same amount to the other side. -/
theorem C60_opposite_yaw (i : Inp) (x y z : ℝ) :
    delta { i with gamma := -i.gamma } x y z = delta i x y z ∧ deflection { i with gamma := -i.gamma } x = -deflection i x := by
  have e0 : x0 { i with gamma := -i.gamma } = x0 i := by simp [x0]
  have e1 : sigY { i with gamma := -i.gamma } x = sigY i x := by simp [sigY, e0, sigY0]
  have e2 : sigZ { i with gamma := -i.gamma } x = sigZ i x := by simp [sigZ, e0, sigZ0]
  have e3 : theta { i with gamma := -i.gamma } = -theta i := by simp [theta]; ring
  have e4 : sigY0 { i with gamma := -i.gamma } = sigY0 i := by simp [sigY0]
  have e5 : rPc { i with gamma := -i.gamma } x = rPc i x := by simp [rPc, e0]
  constructor
  · simp only [delta, nearDelta, farDelta, amplFar, e0, e1, e2, e4, e5, Real.cos_neg]
  · simp only [deflection, deflFar, e0, e1, e2, e3, Real.cos_neg]
    split_ifs <;> ring

/-! ## Continuity along the wake -/

lemma glue {N F : ℝ → ℝ} {b : ℝ} {S : Set ℝ} (hN : ContinuousOn (fun x => N (min x b)) S) (hF : ContinuousOn (fun x => F (max x b)) S)
    (e : N b = F b) : ContinuousOn (fun x => if x < b then N x else F x) S := by
  refine ((hN.add hF).sub (continuousOn_const (c := F b))).congr ?_
  intro x _
  by_cases h : x < b
  · simp [h, min_eq_left h.le, max_eq_right h.le]
  · push Not at h
    simp [not_lt.2 h, min_eq_right h, max_eq_left h, e]

/-- the near wake in closed form -/
lemma near_eq (h : Valid i) {x : ℝ} (y z : ℝ) :
    nearDelta i x y z = -(2 * i.a i.ct) *
      Real.exp (-0.5 * (max (√(y ^ 2 + z ^ 2) - 0.5 * i.D * √(0.5 * i.ct * Real.cos i.gamma / (2 * i.a (i.ct * Real.cos i.gamma)) / (1 - 2 * i.a i.ct)) *
        (1 - x / x0 i)) 0 / (x / x0 i * sigY0 i)) ^ 2) := by
  have h1 := h.half
  have h2 := ct_pos h
  have h3 := cos_pos h
  have h4 := h.pos _ (mul_pos h2 h3)
  have hu : 0 < 1 - 2 * i.a i.ct := by linarith
  have hq : 0 ≤ 0.5 * i.ct * Real.cos i.gamma / (2 * i.a (i.ct * Real.cos i.gamma)) / (1 - 2 * i.a i.ct) := by positivity
  have hp : rPc i x = some (0.5 * i.D * √(0.5 * i.ct * Real.cos i.gamma / (2 * i.a (i.ct * Real.cos i.gamma)) / (1 - 2 * i.a i.ct)) *
        (1 - x / x0 i)) := by
    unfold rPc
    simp only
    rw [if_neg]
    · congr 1; ring
    · rintro (h | h) <;> linarith
  unfold nearDelta
  simp only [hp]
  set p := 0.5 * i.D * √(0.5 * i.ct * Real.cos i.gamma / (2 * i.a (i.ct * Real.cos i.gamma)) / (1 - 2 * i.a i.ct)) * (1 - x / x0 i)
  set r := √(y ^ 2 + z ^ 2)
  by_cases hr : p < r
  · rw [if_pos hr, max_eq_left (by linarith)]; ring
  · rw [if_neg hr, max_eq_right (by linarith)]; simp

lemma near_cont (h : Valid i) (y z : ℝ) : ContinuousOn (fun x => nearDelta i x y z) (Set.Ioi 0) := by
  have h0 := x0_pos h
  have h1 := sigY0_pos h
  have : (fun x => nearDelta i x y z) = _ := funext fun x => near_eq h (x := x) y z
  rw [this]
  refine continuousOn_const.mul (Real.continuous_exp.comp_continuousOn (continuousOn_const.mul (ContinuousOn.pow (ContinuousOn.div ?_ ?_ ?_) 2)))
  · apply Continuous.continuousOn; fun_prop
  · apply Continuous.continuousOn; fun_prop
  · intro x hx
    have : (0 : ℝ) < x := hx
    positivity

lemma far_cont (h : Valid i) (ha : ContinuousOn i.a (Set.Ioi 0)) (y z : ℝ) : ContinuousOn (fun x => farDelta i x y z) (Set.Ici (x0 i)) := by
  have cy : Continuous (fun x => sigY i x) := by unfold sigY; fun_prop
  have cz : Continuous (fun x => sigZ i x) := by unfold sigZ; fun_prop
  have py : ∀ x ∈ Set.Ici (x0 i), sigY i x ≠ 0 := fun x hx => (lt_of_lt_of_le (sigY0_pos h) (sigY_ge h hx)).ne'
  have pz : ∀ x ∈ Set.Ici (x0 i), sigZ i x ≠ 0 := fun x hx => (lt_of_lt_of_le (sigZ0_pos h) (sigZ_ge h hx)).ne'
  unfold farDelta amplFar
  refine ContinuousOn.mul (ContinuousOn.sup (continuousOn_const.mul (ha.comp (ContinuousOn.div continuousOn_const ?_ ?_) ?_)) continuousOn_const)
    ((Real.continuous_exp.comp_continuousOn (continuousOn_const.mul (ContinuousOn.pow (continuousOn_const.div cy.continuousOn py) 2))).mul
      (Real.continuous_exp.comp_continuousOn (continuousOn_const.mul (ContinuousOn.pow (continuousOn_const.div cz.continuousOn pz) 2))))
  · exact ((continuous_const.mul cy).mul cz).continuousOn
  · intro x hx
    exact mul_ne_zero (mul_ne_zero (by norm_num) (py x hx)) (pz x hx)
  · intro x hx
    exact (cte_props h hx).1

lemma sig_x0 (i : Inp) : sigY i (x0 i) = sigY0 i ∧ sigZ i (x0 i) = sigZ0 i := by simp [sigY, sigZ]

lemma far_x0 (h : Valid i) (y z : ℝ) :
    farDelta i (x0 i) y z = -(2 * i.a i.ct) * (Real.exp (-0.5 * (y / sigY0 i) ^ 2) * Real.exp (-0.5 * (z / sigZ0 i) ^ 2)) := by
  unfold farDelta
  rw [ampl_eq h (le_refl _), (sig_x0 i).1, (sig_x0 i).2, sig0_mul]
  have h1 := cos_pos h
  have h2 := h.D
  have : i.ct * Real.cos i.gamma * i.D ^ 2 / (Real.cos i.gamma * i.D ^ 2) = i.ct := by field_simp
  rw [this]; ring

lemma near_x0 (h : Valid i) (y z : ℝ) :
    nearDelta i (x0 i) y z = -(2 * i.a i.ct) * Real.exp (-0.5 * (y ^ 2 + z ^ 2) / sigY0 i ^ 2) := by
  rw [near_eq h, div_self (x0_pos h).ne', sub_self, mul_zero, sub_zero, max_eq_left (Real.sqrt_nonneg _), one_mul, div_pow,
    Real.sq_sqrt (by positivity), mul_div_assoc]

lemma delta_getD (h : Valid i) (y z : ℝ) {x : ℝ} (hx : 1e-8 < x) :
    (delta i x y z).getD 0 = if x < x0 i then nearDelta i x y z else farDelta i x y z := by
  simp only [delta]
  rw [if_pos ⟨hx, h.ct⟩]; rfl

/-- The deficit is continuous along the wake, if the turbine is not yawed or at hub height. (For yawed turbines it is not, see `C60_yaw_jump`.) -/
theorem C60_continuous_partial (h : Valid i) (ha : ContinuousOn i.a (Set.Ioi 0)) (y z : ℝ) (hz : i.gamma = 0 ∨ z = 0) :
    ContinuousOn (fun x => (delta i x y z).getD 0) (Set.Ioi 1e-8) := by
  refine ContinuousOn.congr ?_ fun x hx => delta_getD h y z hx
  refine glue (N := fun x => nearDelta i x y z) (F := fun x => farDelta i x y z) ?_ ?_ ?_
  · refine (near_cont h y z).comp (by fun_prop) ?_
    intro x hx
    have : (1e-8 : ℝ) < x := hx
    exact lt_min (lt_trans (by norm_num) this) (x0_pos h)
  · exact (far_cont h ha y z).comp (by fun_prop) fun x _ => Set.mem_Ici.2 (le_max_right _ _)
  · rw [near_x0 h, far_x0 h, ← Real.exp_add]
    have : -0.5 * (y ^ 2 + z ^ 2) / sigY0 i ^ 2 = -0.5 * (y / sigY0 i) ^ 2 + -0.5 * (z / sigZ0 i) ^ 2 := by
      rcases hz with hz | hz
      · have : sigZ0 i = sigY0 i := by simp [sigZ0, sigY0, hz]
        rw [this]; ring
      · rw [hz]; ring
    rw [this]

/-- Behind a yawed turbine, above and below hub height, the deficit jumps at the onset of the far wake: the near wake is round, with the width of the
horizontal profile of the far wake. -/
theorem C60_yaw_jump (h : Valid i) (hx : 1e-8 < x0 i) (hg : i.gamma ≠ 0) (z : ℝ) (hz : z ≠ 0) :
    ¬ ContinuousAt (fun x => (delta i x 0 z).getD 0) (x0 i) := by
  intro hc
  have hN : ContinuousAt (fun x => nearDelta i x 0 z) (x0 i) := (near_cont h 0 z).continuousAt (Ioi_mem_nhds (x0_pos h))
  have l1 : Filter.Tendsto (fun x => (delta i x 0 z).getD 0) (nhdsWithin (x0 i) (Set.Iio (x0 i))) (nhds (farDelta i (x0 i) 0 z)) := by
    have := hc.tendsto.mono_left (nhdsWithin_le_nhds (s := Set.Iio (x0 i)))
    rw [delta_getD h 0 z hx] at this
    simpa using this
  have l2 : Filter.Tendsto (fun x => (delta i x 0 z).getD 0) (nhdsWithin (x0 i) (Set.Iio (x0 i))) (nhds (nearDelta i (x0 i) 0 z)) := by
    refine (hN.tendsto.mono_left nhdsWithin_le_nhds).congr' ?_
    have m1 : Set.Ioi (1e-8 : ℝ) ∈ nhdsWithin (x0 i) (Set.Iio (x0 i)) := nhdsWithin_le_nhds (Ioi_mem_nhds hx)
    filter_upwards [m1, self_mem_nhdsWithin] with x h1 h2
    rw [delta_getD h 0 z h1, if_pos (Set.mem_Iio.1 h2)]
  have := tendsto_nhds_unique l1 l2
  rw [near_x0 h, far_x0 h] at this
  have ha : -(2 * i.a i.ct) ≠ 0 := by have := a_pos h; linarith
  have := mul_left_cancel₀ ha this
  rw [← Real.exp_add] at this
  have := Real.exp_injective this
  have hy := sigY0_pos h
  have hzz := sigZ0_pos h
  have hlt : sigY0 i < sigZ0 i := by
    have hc : Real.cos i.gamma < 1 := by
      rcases lt_or_eq_of_le (Real.cos_le_one i.gamma) with hh | hh
      · exact hh
      · exfalso
        have := (Real.cos_eq_one_iff_of_lt_of_lt (by linarith [(abs_lt.1 h.gamma).1, Real.pi_pos]) (by linarith [(abs_lt.1 h.gamma).2, Real.pi_pos])).1 hh
        exact hg this
    have hD := h.D
    unfold sigY0 sigZ0
    apply div_lt_div_of_pos_right _ (by positivity)
    nlinarith
  have h2 : z ^ 2 / sigZ0 i ^ 2 < z ^ 2 / sigY0 i ^ 2 := by
    have : 0 < z ^ 2 := by positivity
    apply div_lt_div_of_pos_left this (by positivity)
    nlinarith
  have h3 : -0.5 * (0 / sigY0 i) ^ 2 + -0.5 * (z / sigZ0 i) ^ 2 = -0.5 * (z ^ 2 / sigZ0 i ^ 2) := by ring
  have h4 : -0.5 * (0 ^ 2 + z ^ 2) / sigY0 i ^ 2 = -0.5 * (z ^ 2 / sigY0 i ^ 2) := by ring
  rw [h3, h4] at this
  linarith

/-- In the near wake the deficit on the axis is constant, and equal to `2 a`. -/
theorem C60_near_axis (h : Valid i) (x : ℝ) (hx : 1e-8 < x) (hx0 : x < x0 i) : delta i x 0 0 = some (-(2 * i.a i.ct)) := by
  have hp := x0_pos h
  have hD := h.D
  have h1 : 0 ≤ 1 - x / x0 i := by rw [sub_nonneg, div_le_one hp]; exact hx0.le
  unfold delta
  rw [if_pos ⟨hx, h.ct⟩, if_pos hx0, near_eq h, max_eq_right]
  · simp
  · have e : √((0 : ℝ) ^ 2 + 0 ^ 2) = 0 := by norm_num
    rw [e, zero_sub, neg_nonpos]
    positivity

/-! ## Recovery -/

/-- Behind the onset of the far wake the deficit on the axis gets smaller downstream. -/
theorem C60_recovery (h : Valid i) (x x' : ℝ) (hx : x0 i ≤ x) (hxx : x ≤ x') (h1 : 1e-8 < x) :
    ∃ v v', delta i x 0 0 = some v ∧ delta i x' 0 0 = some v' ∧ v ≤ v' := by
  refine ⟨farDelta i x 0 0, farDelta i x' 0 0, ?_, ?_, ?_⟩
  · unfold delta; rw [if_pos ⟨h1, h.ct⟩, if_neg (not_lt.2 hx)]
  · unfold delta; rw [if_pos ⟨lt_of_lt_of_le h1 hxx, h.ct⟩, if_neg (not_lt.2 (hx.trans hxx))]
  · simp only [farDelta, zero_div]
    rw [ampl_eq h hx, ampl_eq h (hx.trans hxx)]
    have hp := sigYZ_pos h hx
    have hm := sigYZ_mono h hx hxx
    have h2 := cos_pos h
    have h3 := h.D
    have h4 := ct_pos h
    have : i.ct * Real.cos i.gamma * i.D ^ 2 / (8 * sigY i x' * sigZ i x') ≤ i.ct * Real.cos i.gamma * i.D ^ 2 / (8 * sigY i x * sigZ i x) := by
      rw [mul_assoc 8, mul_assoc 8]
      apply div_le_div_of_nonneg_left (by positivity) (by positivity)
      linarith
    have := h.mono this
    simp
    linarith

/-- Far downstream the wake disappears. -/
theorem C60_vanishes (h : Valid i) (ha : ContinuousAt i.a 0) (ha0 : i.a 0 = 0) (y z : ℝ) :
    Filter.Tendsto (fun x => (delta i x y z).getD 0) Filter.atTop (nhds 0) := by
  have hD := h.D
  have hk := h.k
  have hc := cos_pos h
  have ty : Filter.Tendsto (fun x => sigY i x) Filter.atTop Filter.atTop := by
    unfold sigY
    exact Filter.tendsto_atTop_add_const_right _ _ (Filter.Tendsto.const_mul_atTop hk (Filter.tendsto_atTop_add_const_right _ _ Filter.tendsto_id))
  have tz : Filter.Tendsto (fun x => sigZ i x) Filter.atTop Filter.atTop := by
    unfold sigZ
    exact Filter.tendsto_atTop_add_const_right _ _ (Filter.Tendsto.const_mul_atTop hk (Filter.tendsto_atTop_add_const_right _ _ Filter.tendsto_id))
  have tq : Filter.Tendsto (fun x => i.ct * Real.cos i.gamma * i.D ^ 2 / (8 * sigY i x * sigZ i x)) Filter.atTop (nhds 0) :=
    Filter.Tendsto.div_atTop tendsto_const_nhds ((Filter.Tendsto.const_mul_atTop (by norm_num) ty).atTop_mul_atTop₀ tz)
  have ta : Filter.Tendsto (fun x => -2 * i.a (i.ct * Real.cos i.gamma * i.D ^ 2 / (8 * sigY i x * sigZ i x))) Filter.atTop (nhds 0) := by
    have := (ha.tendsto.comp tq).const_mul (-2)
    simpa [ha0] using this
  refine squeeze_zero_norm' (a := fun x => -(-2 * i.a (i.ct * Real.cos i.gamma * i.D ^ 2 / (8 * sigY i x * sigZ i x)))) ?_ (by simpa using ta.neg)
  filter_upwards [Filter.eventually_ge_atTop (x0 i), Filter.eventually_gt_atTop (1e-8 : ℝ)] with x h1 h2
  rw [delta_getD h y z h2, if_neg (not_lt.2 h1)]
  unfold farDelta
  rw [ampl_eq h h1]
  have hp := h.pos _ (cte_props h h1).1
  have e0 := mul_pos (Real.exp_pos (-0.5 * (y / sigY i x) ^ 2)) (Real.exp_pos (-0.5 * (z / sigZ i x) ^ 2))
  have e1 : Real.exp (-0.5 * (y / sigY i x) ^ 2) * Real.exp (-0.5 * (z / sigZ i x) ^ 2) ≤ 1 := by
    rw [← Real.exp_add, Real.exp_le_one_iff]
    nlinarith [sq_nonneg (y / sigY i x), sq_nonneg (z / sigZ i x)]
  rw [Real.norm_eq_abs, abs_of_nonpos (by nlinarith)]
  nlinarith

/-! ## Deflection -/

lemma theta_nonneg (h : Valid i) (hg : 0 ≤ i.gamma) : 0 ≤ theta i := by
  have h1 := cos_pos h
  have h2 := (h.pos _ (mul_pos (ct_pos h) h1)).le
  unfold theta; positivity

lemma sqct_props (h : Valid i) : 0 < √i.ct ∧ √i.ct ≤ 1 :=
  ⟨Real.sqrt_pos.2 (ct_pos h), Real.sqrt_le_one.2 h.ct1⟩

lemma sqsd_ge (h : Valid i) {x : ℝ} (hx : x0 i ≤ x) : 1 ≤ √(8 * sigY i x * sigZ i x / (Real.cos i.gamma * i.D ^ 2)) := by
  have h1 := cos_pos h
  have h2 := h.D
  rw [Real.one_le_sqrt, le_div_iff₀ (by positivity), ← sig0_mul]
  have := mul_le_mul (sigY_ge h hx) (sigZ_ge h hx) (sigZ0_pos h).le (le_trans (sigY0_pos h).le (sigY_ge h hx))
  nlinarith

lemma sqsd_mono (h : Valid i) {x x' : ℝ} (hx : x0 i ≤ x) (hxx : x ≤ x') :
    √(8 * sigY i x * sigZ i x / (Real.cos i.gamma * i.D ^ 2)) ≤ √(8 * sigY i x' * sigZ i x' / (Real.cos i.gamma * i.D ^ 2)) := by
  have h1 := cos_pos h
  have h2 := h.D
  apply Real.sqrt_le_sqrt
  apply div_le_div_of_nonneg_right _ (by positivity)
  nlinarith [sigYZ_mono h hx hxx]

/-- argument of the logarithm -/
lemma arg_mono {s q q' : ℝ} (hs : 0 < s) (hs1 : s ≤ 1) (hq : 1 ≤ q) (hqq : q ≤ q') :
    0 < ((1.6 + s) * (1.6 * q - s)) / ((1.6 - s) * (1.6 * q + s)) ∧
    ((1.6 + s) * (1.6 * q - s)) / ((1.6 - s) * (1.6 * q + s)) ≤ ((1.6 + s) * (1.6 * q' - s)) / ((1.6 - s) * (1.6 * q' + s)) ∧
    ((1.6 + s) * (1.6 * q - s)) / ((1.6 - s) * (1.6 * q + s)) < (1.6 + s) / (1.6 - s) := by
  have h1 : 0 < 1.6 - s := by norm_num; linarith
  have h2 : 0 < 1.6 * q - s := by norm_num; linarith
  have h3 : 0 < 1.6 * q' - s := by norm_num; linarith
  have h4 : 0 < 1.6 * q + s := by linarith
  have h5 : 0 < 1.6 * q' + s := by linarith
  have h6 : 0 < 1.6 + s := by positivity
  refine ⟨by positivity, ?_, ?_⟩
  · rw [div_le_div_iff₀ (by positivity) (by positivity)]
    have key : (1.6 * q - s) * (1.6 * q' + s) ≤ (1.6 * q' - s) * (1.6 * q + s) := by nlinarith
    have h7 := mul_pos h6 h1
    calc (1.6 + s) * (1.6 * q - s) * ((1.6 - s) * (1.6 * q' + s)) = ((1.6 + s) * (1.6 - s)) * ((1.6 * q - s) * (1.6 * q' + s)) := by ring
      _ ≤ ((1.6 + s) * (1.6 - s)) * ((1.6 * q' - s) * (1.6 * q + s)) := mul_le_mul_of_nonneg_left key h7.le
      _ = _ := by ring
  · rw [div_lt_div_iff₀ (by positivity) h1]
    have h7 := mul_pos h6 h1
    nlinarith

lemma defl_x0 (h : Valid i) : deflFar i (x0 i) = theta i * x0 i := by
  have h1 := cos_pos h
  have h2 := h.D
  obtain ⟨h3, h4⟩ := sqct_props h
  unfold deflFar
  simp only [(sig_x0 i).1, (sig_x0 i).2, sig0_mul]
  rw [div_self (by positivity), Real.sqrt_one, mul_one, mul_comm (1.6 + √i.ct), div_self, Real.log_one]
  · ring
  · have : 0 < 1.6 - √i.ct := by norm_num; linarith
    positivity

lemma fac_nonneg (h : Valid i) (hg : 0 ≤ i.gamma) :
    0 ≤ i.D * theta i / 14.7 * √(Real.cos i.gamma / (i.ct * i.k ^ 2)) * (2.9 + 1.3 * (1 - 2 * i.a i.ct) - i.ct) := by
  have h1 := theta_nonneg h hg
  have h2 := h.D
  have h3 : 0 ≤ 2.9 + 1.3 * (1 - 2 * i.a i.ct) - i.ct := by
    have := h.half; have := h.ct1; norm_num; linarith
  positivity

lemma deflFar_mono (h : Valid i) (hg : 0 ≤ i.gamma) {x x' : ℝ} (hx : x0 i ≤ x) (hxx : x ≤ x') : deflFar i x ≤ deflFar i x' := by
  have h1 := fac_nonneg h hg
  obtain ⟨h3, h4⟩ := sqct_props h
  obtain ⟨p1, p2, -⟩ := arg_mono h3 h4 (sqsd_ge h hx) (sqsd_mono h hx hxx)
  unfold deflFar
  have := mul_le_mul_of_nonneg_left (Real.log_le_log p1 p2) h1
  simp only
  linarith

/-- The deflection of the wake of a turbine with positive yaw misalignment is positive, grows downstream and stays below a bound. -/
theorem C60_deflection (h : Valid i) (hg : 0 ≤ i.gamma) (x x' : ℝ) (hx : 1e-8 < x) (hxx : x ≤ x') :
    0 ≤ deflection i x ∧ deflection i x ≤ deflection i x' ∧
    deflection i x ≤ theta i * x0 i + i.D * theta i / 14.7 * √(Real.cos i.gamma / (i.ct * i.k ^ 2)) * (2.9 + 1.3 * (1 - 2 * i.a i.ct) - i.ct)
      * Real.log ((1.6 + √i.ct) / (1.6 - √i.ct)) := by
  have ht := theta_nonneg h hg
  have hf := fac_nonneg h hg
  have h0 := x0_pos h
  have hx' : 0 < x := lt_trans (by norm_num) hx
  obtain ⟨h3, h4⟩ := sqct_props h
  have hl : 0 ≤ Real.log ((1.6 + √i.ct) / (1.6 - √i.ct)) := by
    apply Real.log_nonneg
    rw [one_le_div (by norm_num; linarith)]
    linarith
  have e : ∀ x, 1e-8 < x → deflection i x = if x < x0 i then theta i * x else deflFar i x := by
    intro x hx; unfold deflection; rw [if_pos ⟨hx, h.ct⟩]
  rw [e x hx, e x' (lt_of_lt_of_le hx hxx)]
  by_cases hn : x < x0 i
  · rw [if_pos hn]
    refine ⟨by positivity, ?_, ?_⟩
    · by_cases hn' : x' < x0 i
      · rw [if_pos hn']; exact mul_le_mul_of_nonneg_left hxx ht
      · rw [if_neg hn']
        have := deflFar_mono h hg (le_refl _) (not_lt.1 hn')
        rw [defl_x0 h] at this
        exact le_trans (mul_le_mul_of_nonneg_left hn.le ht) this
    · have := mul_le_mul_of_nonneg_left hn.le ht
      have := mul_nonneg hf hl
      linarith
  · have hn0 := not_lt.1 hn
    have hn' : ¬ x' < x0 i := not_lt.2 (hn0.trans hxx)
    rw [if_neg hn, if_neg hn']
    refine ⟨?_, deflFar_mono h hg hn0 hxx, ?_⟩
    · have := deflFar_mono h hg (le_refl _) hn0
      rw [defl_x0 h] at this
      exact le_trans (by positivity) this
    · obtain ⟨p1, -, p3⟩ := arg_mono h3 h4 (sqsd_ge h hn0) (le_refl _)
      unfold deflFar
      have := mul_le_mul_of_nonneg_left (Real.log_le_log p1 p3.le) hf
      simp only
      linarith

/-- The deflection is continuous along the wake. -/
theorem C60_deflection_continuous (h : Valid i) : ContinuousOn (deflection i) (Set.Ioi 1e-8) := by
  have e : Set.EqOn (deflection i) (fun x => if x < x0 i then theta i * x else deflFar i x) (Set.Ioi 1e-8) := by
    intro x hx; unfold deflection; rw [if_pos ⟨hx, h.ct⟩]
  refine ContinuousOn.congr ?_ e
  obtain ⟨h3, h4⟩ := sqct_props h
  have hF : ContinuousOn (deflFar i) (Set.Ici (x0 i)) := by
    have cy : Continuous (fun x => sigY i x) := by unfold sigY; fun_prop
    have cz : Continuous (fun x => sigZ i x) := by unfold sigZ; fun_prop
    have cq : Continuous (fun x => √(8 * sigY i x * sigZ i x / (Real.cos i.gamma * i.D ^ 2))) := by fun_prop
    unfold deflFar
    refine continuousOn_const.add (continuousOn_const.mul (ContinuousOn.log (ContinuousOn.div ?_ ?_ ?_) ?_))
    · apply Continuous.continuousOn; fun_prop
    · apply Continuous.continuousOn; fun_prop
    · intro x hx
      have := sqsd_ge h hx
      have h5 : 0 < 1.6 - √i.ct := by norm_num; linarith
      have h6 : 0 < 1.6 * √(8 * sigY i x * sigZ i x / (Real.cos i.gamma * i.D ^ 2)) + √i.ct := by linarith
      positivity
    · intro x hx
      exact (arg_mono h3 h4 (sqsd_ge h hx) (le_refl _)).1.ne'
  refine glue (N := fun x => theta i * x) (F := deflFar i) ?_ ?_ (defl_x0 h).symm
  · apply Continuous.continuousOn; fun_prop
  · exact hF.comp (by fun_prop) fun x _ => Set.mem_Ici.2 (le_max_right _ _)

/-! ## Momentum -/

lemma gauss1 {s : ℝ} (hs : 0 < s) : MeasureTheory.Integrable (fun y : ℝ => Real.exp (-0.5 * (y / s) ^ 2)) ∧
    ∫ y : ℝ, Real.exp (-0.5 * (y / s) ^ 2) = s * √(2 * Real.pi) := by
  have e : (fun y : ℝ => Real.exp (-0.5 * (y / s) ^ 2)) = fun y => Real.exp (-(1 / (2 * s ^ 2)) * y ^ 2) := by
    funext y; congr 1; field_simp; norm_num; ring
  rw [e]
  refine ⟨integrable_exp_neg_mul_sq (by positivity), ?_⟩
  rw [integral_gaussian]
  have : Real.pi / (1 / (2 * s ^ 2)) = s ^ 2 * (2 * Real.pi) := by field_simp
  rw [this, Real.sqrt_mul (by positivity), Real.sqrt_sq hs.le]

lemma gauss2 {s : ℝ} (hs : 0 < s) : MeasureTheory.Integrable (fun y : ℝ => Real.exp (-0.5 * (y / s) ^ 2) ^ 2) ∧
    ∫ y : ℝ, Real.exp (-0.5 * (y / s) ^ 2) ^ 2 = s * √Real.pi := by
  have e : (fun y : ℝ => Real.exp (-0.5 * (y / s) ^ 2) ^ 2) = fun y => Real.exp (-(1 / s ^ 2) * y ^ 2) := by
    funext y; rw [← Real.exp_nat_mul]; congr 1; field_simp; norm_num
  rw [e]
  refine ⟨integrable_exp_neg_mul_sq (by positivity), ?_⟩
  rw [integral_gaussian]
  have : Real.pi / (1 / s ^ 2) = s ^ 2 * Real.pi := by field_simp
  rw [this, Real.sqrt_mul (by positivity), Real.sqrt_sq hs.le]

/-- With the axial induction of momentum theory, the flux of missing momentum through any plane in the far wake, relative to the undisturbed wind,
is the thrust of the rotor: `½ ct cos γ` times the rotor area. -/
theorem C60_momentum (h : Valid i) (cm : ℝ) (ha : i.a = betz cm) (hct : i.ct ≤ cm) (hcm : cm ≤ 1) (x : ℝ) (hx : 1e-8 < x) (hx0 : x0 i ≤ x) :
    ∫ y : ℝ, ∫ z : ℝ, (1 + (delta i x y z).getD 0) * -((delta i x y z).getD 0) =
      1 / 2 * i.ct * Real.cos i.gamma * (Real.pi * (i.D / 2) ^ 2) := by
  obtain ⟨c0, c1⟩ := cte_props h hx0
  have hy : 0 < sigY i x := lt_of_lt_of_le (sigY0_pos h) (sigY_ge h hx0)
  have hz : 0 < sigZ i x := lt_of_lt_of_le (sigZ0_pos h) (sigZ_ge h hx0)
  set cte := i.ct * Real.cos i.gamma * i.D ^ 2 / (8 * sigY i x * sigZ i x) with hcte
  set C := 1 - √(1 - cte) with hC
  have hA : amplFar i x = -C := by
    rw [ampl_eq h hx0, ← hcte, ha, betz, min_eq_left (c1.trans hct), hC]; ring
  have hCC : 2 * C - C ^ 2 = cte := by
    have := Real.sq_sqrt (show 0 ≤ 1 - cte by linarith)
    rw [hC]; nlinarith
  have e : ∀ y z, (1 + (delta i x y z).getD 0) * -((delta i x y z).getD 0) =
      C * Real.exp (-0.5 * (y / sigY i x) ^ 2) * Real.exp (-0.5 * (z / sigZ i x) ^ 2) -
      C ^ 2 * Real.exp (-0.5 * (y / sigY i x) ^ 2) ^ 2 * Real.exp (-0.5 * (z / sigZ i x) ^ 2) ^ 2 := by
    intro y z
    rw [delta_getD h y z hx, if_neg (not_lt.2 hx0)]
    unfold farDelta
    rw [hA]; ring
  simp only [e]
  obtain ⟨iy1, vy1⟩ := gauss1 hy
  obtain ⟨iz1, vz1⟩ := gauss1 hz
  obtain ⟨iy2, vy2⟩ := gauss2 hy
  obtain ⟨iz2, vz2⟩ := gauss2 hz
  have inner : ∀ y : ℝ, ∫ z : ℝ, (C * Real.exp (-0.5 * (y / sigY i x) ^ 2) * Real.exp (-0.5 * (z / sigZ i x) ^ 2) -
      C ^ 2 * Real.exp (-0.5 * (y / sigY i x) ^ 2) ^ 2 * Real.exp (-0.5 * (z / sigZ i x) ^ 2) ^ 2) =
      C * (sigZ i x * √(2 * Real.pi)) * Real.exp (-0.5 * (y / sigY i x) ^ 2) -
      C ^ 2 * (sigZ i x * √Real.pi) * Real.exp (-0.5 * (y / sigY i x) ^ 2) ^ 2 := by
    intro y
    rw [MeasureTheory.integral_sub (iz1.const_mul _) (iz2.const_mul _), MeasureTheory.integral_const_mul, MeasureTheory.integral_const_mul, vz1, vz2]
    ring
  simp only [inner]
  rw [MeasureTheory.integral_sub (iy1.const_mul _) (iy2.const_mul _), MeasureTheory.integral_const_mul, MeasureTheory.integral_const_mul, vy1, vy2]
  have s1 : √(2 * Real.pi) * √(2 * Real.pi) = 2 * Real.pi := Real.mul_self_sqrt (by positivity)
  have s2 : √Real.pi * √Real.pi = Real.pi := Real.mul_self_sqrt (by positivity)
  have : C * (sigZ i x * √(2 * Real.pi)) * (sigY i x * √(2 * Real.pi)) - C ^ 2 * (sigZ i x * √Real.pi) * (sigY i x * √Real.pi) =
      sigY i x * sigZ i x * (C * (√(2 * Real.pi) * √(2 * Real.pi)) - C ^ 2 * (√Real.pi * √Real.pi)) := by ring
  rw [this, s1, s2]
  have : sigY i x * sigZ i x * (C * (2 * Real.pi) - C ^ 2 * Real.pi) = sigY i x * sigZ i x * Real.pi * (2 * C - C ^ 2) := by ring
  rw [this, hCC, hcte]
  field_simp
  ring

/-! ## High thrust -/

/-- If the axial induction reaches 1/2 (possible for the default induction model, for thrust coefficients above 1.16), the near wake has no lateral
bound: the deficit is `2 a`, at least 1, at any distance from the axis. -/
theorem C60_core_nan (i : Inp) (x y z : ℝ) (hct : 1e-8 < i.ct) (hg : |i.gamma| < Real.pi / 2) (hpos : ∀ c, 0 < c → 0 < i.a c)
    (ha : 1 / 2 ≤ i.a i.ct) (hx : 1e-8 < x) (hx0 : x < x0 i) : delta i x y z = some (-(2 * i.a i.ct)) := by
  have hc : 0 < Real.cos i.gamma := Real.cos_pos_of_mem_Ioo ⟨(abs_lt.1 hg).1, (abs_lt.1 hg).2⟩
  have h0 : 0 < i.ct := lt_trans (by norm_num) hct
  have hu := hpos _ (mul_pos h0 hc)
  have hp : rPc i x = none := by
    unfold rPc
    simp only
    rw [if_pos]
    by_cases h : 1 - 2 * i.a i.ct = 0
    · exact Or.inl h
    · right
      apply div_neg_of_pos_of_neg (by positivity)
      rcases lt_or_gt_of_ne h with h | h
      · exact h
      · linarith
  unfold delta
  rw [if_pos ⟨hx, hct⟩, if_pos hx0]
  simp only [nearDelta, hp]
  congr 1; ring

/-! ## The stored data -/

/-- Whatever was evaluated before in this chunk: if all evaluations belong to the same model, each of them gets the data of its own x values.
(With different models they do not, see `C60_two_models`. The hypothesis on `store` holds for the empty store at the beginning.) -/
theorem C60_store_partial {α : Type} (f : Check → α) (l : List (Bool × (Check → α) × Check)) (hl : ∀ e ∈ l, e.2.1 = f)
    (store : Option (Check × α)) (hs : ∀ c d, store = some (c, d) → d = f c) :
    evaluations store l = l.map fun e => f e.2.2 := by
  induction l generalizing store with
  | nil => rfl
  | cons e l ih =>
    obtain ⟨fr, g, c⟩ := e
    have hg : g = f := hl _ List.mem_cons_self
    subst hg
    have hl' : ∀ e ∈ l, e.2.1 = g := fun e he => hl e (List.mem_cons_of_mem _ he)
    have key : ∀ r : α × Option (Check × α), r = (if fr then frameData g c else useData store g c) →
        r.1 = g c ∧ ∀ c' d, r.2 = some (c', d) → d = g c' := by
      rintro r rfl
      cases fr with
      | true => simp [frameData]
      | false =>
        simp only [Bool.false_eq_true, if_false, useData]
        cases store with
        | none => simp
        | some s =>
          obtain ⟨c', d⟩ := s
          by_cases h : c' = c
          · subst h
            simpa using hs _ _ rfl
          · simp [h]
    obtain ⟨k1, k2⟩ := key _ rfl
    simp only [evaluations, List.map_cons]
    rw [k1, ih hl' _ k2]

/-- Two wake models of this type with different parameters, evaluated one after the other for the same turbine and targets: the second one uses the
data of the first one. -/
theorem C60_two_models {α : Type} (f g : Check → α) (c : Check) : evaluations none [(false, f, c), (false, g, c)] = [f c, f c] := by
  simp [evaluations, useData]

/-! ## Non-vacuity -/

/-- a turbine with diameter 100 m, thrust coefficient 0.8, 20 degrees yaw misalignment, with the default parameters -/
def exInp (a : ℝ → ℝ) (ct gamma : ℝ) : Inp := ⟨a, 0.58, 0.07, 100, ct, 0.06, 0.04, gamma⟩

lemma madsen_mono : Monotone (fun c : ℝ => madsenDefault (max c 0)) := by
  intro a b h
  have h1 : max a 0 ≤ max b 0 := max_le_max_right 0 h
  have h2 : 0 ≤ max a 0 := le_max_right _ _
  have h3 : max a 0 ^ 2 ≤ max b 0 ^ 2 := pow_le_pow_left₀ h2 h1 2
  have h4 : max a 0 ^ 3 ≤ max b 0 ^ 3 := pow_le_pow_left₀ h2 h1 3
  simp only [madsenDefault, madsen]
  linarith

lemma betz_valid (gamma : ℝ) (h : |gamma| < Real.pi / 2) : Valid (exInp (betz 0.99999) 0.8 gamma) := by
  refine ⟨by norm_num [exInp], by norm_num [exInp], by norm_num [exInp], by norm_num [exInp], by norm_num [exInp], by norm_num [exInp],
    by norm_num [exInp], h, ?_, ?_, ?_⟩
  · intro a b hab
    have : √(1 - min b 0.99999) ≤ √(1 - min a 0.99999) := Real.sqrt_le_sqrt (by linarith [min_le_min_right (0.99999 : ℝ) hab])
    simp only [exInp, betz]
    linarith
  · intro c hc
    have : √(1 - min c 0.99999) < 1 := by
      rw [Real.sqrt_lt' one_pos]
      have : 0 < min c 0.99999 := lt_min hc (by norm_num)
      linarith
    simp only [exInp, betz]
    linarith
  · have : 0 < √((1 : ℝ) - min 0.8 0.99999) := by
      apply Real.sqrt_pos.2; norm_num
    simp only [exInp, betz]
    linarith

example : Valid (exInp (betz 0.99999) 0.8 0.35) := betz_valid _ (by
  rw [abs_of_pos (by norm_num)]; linarith [Real.pi_gt_three])

/-- the momentum theorem applies to the example, 1100 m downstream -/
example : ∫ y : ℝ, ∫ z : ℝ, (1 + (delta (exInp (betz 0.99999) 0.8 0) 1100 y z).getD 0) * -((delta (exInp (betz 0.99999) 0.8 0) 1100 y z).getD 0) =
    1 / 2 * 0.8 * (Real.pi * 50 ^ 2) := by
  have hv := betz_valid 0 (by rw [abs_zero]; linarith [Real.pi_gt_three])
  have := C60_momentum hv 0.99999 rfl (by norm_num [exInp]) (by norm_num) 1100 (by norm_num) ?_
  · rw [this]; simp only [exInp, Real.cos_zero]; norm_num
  · have hh := a_pos hv
    have h2 : (1.4 : ℝ) ≤ √2 := Real.le_sqrt_of_sq_le (by norm_num)
    unfold x0
    rw [div_le_iff₀ (den_pos hv)]
    simp only [exInp] at hh ⊢
    rw [Real.cos_zero]
    set q := betz 0.99999 0.8
    have : 1.4 * (4 * 0.58 * 0.06 + 0.07 * (2 * q)) ≤ √2 * (4 * 0.58 * 0.06 + 0.07 * (2 * q)) := mul_le_mul_of_nonneg_right h2 (by positivity)
    norm_num at this ⊢
    nlinarith

/-- the default induction model at a thrust coefficient of 1.2: deficit beyond 1, also 10 km off the axis -/
example : delta (exInp (fun c => madsenDefault (max c 0)) 1.2 0) 1 10000 0 = some (-(2 * madsenDefault 1.2)) ∧ 1 < 2 * madsenDefault 1.2 := by
  have hm : (1 : ℝ) < 2 * madsenDefault 1.2 := by norm_num [madsenDefault, madsen]
  refine ⟨?_, hm⟩
  have := C60_core_nan (exInp (fun c => madsenDefault (max c 0)) 1.2 0) 1 10000 0 (by norm_num [exInp])
    (by simp [exInp, Real.pi_pos]) ?_ ?_ (by norm_num) ?_
  · rw [this]; simp [exInp]; norm_num
  · intro c hc
    simp only [exInp, max_eq_left hc.le, madsenDefault, madsen]
    positivity
  · simp only [exInp]
    rw [max_eq_left (by norm_num)]; linarith
  · unfold x0
    have h2 : √(2 : ℝ) ≤ 1.5 := Real.sqrt_le_iff.2 ⟨by norm_num, by norm_num⟩
    simp only [exInp, Real.cos_zero]
    rw [max_eq_left (by norm_num : (0 : ℝ) ≤ 1.2)]
    have hp : 0 < 4 * 0.58 * 0.06 + 0.07 * (2 * madsenDefault 1.2) := by norm_num [madsenDefault, madsen]
    rw [lt_div_iff₀ (by positivity)]
    have : √(2 : ℝ) * (4 * 0.58 * 0.06 + 0.07 * (2 * madsenDefault 1.2)) ≤ 1.5 * (4 * 0.58 * 0.06 + 0.07 * (2 * madsenDefault 1.2)) :=
      mul_le_mul_of_nonneg_right h2 hp.le
    rw [one_mul]
    refine lt_of_le_of_lt this ?_
    norm_num [madsenDefault, madsen]

end

end Foxes.Props.Bast16
