import Verif.Model.Cubic
import Mathlib.Topology.Order.IntermediateValue
import Mathlib.Tactic.Linarith
import Mathlib.Tactic.LinearCombination
import Mathlib.Tactic.Positivity
import Mathlib.Tactic.NormNum
import Mathlib.Tactic.FieldSimp
import Mathlib.Analysis.SpecialFunctions.Trigonometric.Chebyshev.Basic
/-
C45: roots of cubic polynomials.
-/
namespace Foxes.Props.Cubic
open Foxes.Cubic

/-- the polynomial, for the statements -/
def poly (a0 a1 a2 a3 x : ℝ) : ℝ := a3 * x ^ 3 + a2 * x ^ 2 + a1 * x + a0

lemma cos_shift1 (t : ℝ) : Real.cos ((t + 2 * Real.pi) / 3) = -(Real.cos (t / 3)) / 2 - √3 / 2 * Real.sin (t / 3) := by
  have : (t + 2 * Real.pi) / 3 = t / 3 + (Real.pi - Real.pi / 3) := by ring
  rw [this, Real.cos_add, Real.cos_pi_sub, Real.sin_pi_sub, Real.cos_pi_div_three, Real.sin_pi_div_three]; ring

lemma cos_shift2 (t : ℝ) : Real.cos ((t + 4 * Real.pi) / 3) = -(Real.cos (t / 3)) / 2 + √3 / 2 * Real.sin (t / 3) := by
  have : (t + 4 * Real.pi) / 3 = t / 3 + (Real.pi / 3 + Real.pi) := by ring
  rw [this, Real.cos_add, Real.cos_add_pi, Real.sin_add_pi, Real.cos_pi_div_three, Real.sin_pi_div_three]; ring

/-- factorisation of the polynomial by the three outputs -/
lemma factor (b c d x : ℝ) (hD : disc b c d ≤ 0) (hq : Q b c ≠ 0) :
    let s := √(-(Q b c))
    let t := Real.arccos (R b c d / √(-(Q b c * Q b c * Q b c)))
    x ^ 3 + b * x ^ 2 + c * x + d =
      (x - (2 * s * Real.cos (t / 3) - 1 / 3 * b)) * (x - (2 * s * Real.cos ((t + 2 * Real.pi) / 3) - 1 / 3 * b)) *
        (x - (2 * s * Real.cos ((t + 4 * Real.pi) / 3) - 1 / 3 * b)) := by
  intro s t
  have hQ : Q b c < 0 := by
    by_contra h
    have h0 : 0 < Q b c := lt_of_le_of_ne (not_lt.1 h) (Ne.symm hq)
    have : 0 < disc b c d := by unfold disc; have := mul_self_nonneg (R b c d); positivity
    linarith
  have hs2 : s ^ 2 = -(Q b c) := Real.sq_sqrt (by linarith)
  have hs : 0 < s := Real.sqrt_pos.2 (by linarith)
  have hq3 : √(-(Q b c * Q b c * Q b c)) = s ^ 3 := by
    have : -(Q b c * Q b c * Q b c) = (s ^ 3) ^ 2 := by
      have : (s ^ 3) ^ 2 = (s ^ 2) ^ 3 := by ring
      rw [this, hs2]; ring
    rw [this, Real.sqrt_sq (by positivity)]
  have hrange : (R b c d) ^ 2 ≤ (s ^ 3) ^ 2 := by
    have e : (s ^ 3) ^ 2 = (s ^ 2) ^ 3 := by ring
    rw [e, hs2]; unfold disc at hD; linarith
  have habs := abs_le_of_sq_le_sq' hrange (by positivity)
  have hcos : Real.cos t * s ^ 3 = R b c d := by
    have h3 : 0 < s ^ 3 := by positivity
    show Real.cos (Real.arccos (R b c d / √(-(Q b c * Q b c * Q b c)))) * s ^ 3 = R b c d
    rw [hq3, Real.cos_arccos, div_mul_cancel₀ _ h3.ne']
    · rw [le_div_iff₀ h3]; linarith [habs.1]
    · rw [div_le_one h3]; exact habs.2
  rw [cos_shift1, cos_shift2]
  set C := Real.cos (t / 3) with hC
  set S := Real.sin (t / 3) with hS
  have hCS : S ^ 2 = 1 - C ^ 2 := by rw [hC, hS, Real.sin_sq]
  have h33 : √3 ^ 2 = 3 := Real.sq_sqrt (by norm_num)
  have hc3 : Real.cos t = 4 * C ^ 3 - 3 * C := by
    have : t = 3 * (t / 3) := by ring
    rw [this, Real.cos_three_mul, ← hC]
  have hR : R b c d = (4 * C ^ 3 - 3 * C) * s ^ 3 := by rw [← hcos, hc3]
  have hRd : d = (9 * b * c - 2 * b * (b * b)) / 27 - 2 * R b c d := by unfold R; ring
  have hQc : c = 3 * Q b c + b * b / 3 := by unfold Q; ring
  have hQs : Q b c = -s ^ 2 := by linarith
  rw [hR] at hRd
  rw [hQs] at hQc
  generalize hc' : c = c' at *
  generalize hd' : d = d' at *
  subst hRd
  subst hQc
  have e3 : (√3 / 2 * S) ^ 2 = 3 / 4 * (1 - C ^ 2) := by rw [mul_pow, div_pow, h33, hCS]; ring
  set W := √3 / 2 * S with hW
  have : ∀ y : ℝ, (y - 2 * s * C) * (y - 2 * s * (-C / 2 - W)) * (y - 2 * s * (-C / 2 + W)) = y ^ 3 - 3 * s ^ 2 * y - 2 * ((4 * C ^ 3 - 3 * C) * s ^ 3) := by
    intro y
    linear_combination (-4 * s ^ 2 * (y - 2 * s * C)) * e3
  have h := this (x + 1 / 3 * b)
  have e : (x - (2 * s * C - 1 / 3 * b)) * (x - (2 * s * (-C / 2 - W) - 1 / 3 * b)) * (x - (2 * s * (-C / 2 + W) - 1 / 3 * b))
      = (x + 1 / 3 * b - 2 * s * C) * (x + 1 / 3 * b - 2 * s * (-C / 2 - W)) * (x + 1 / 3 * b - 2 * s * (-C / 2 + W)) := by ring
  rw [e, h]; ring

/-- **C45 (partial: discriminant not positive, no triple root).** The outputs are exactly the real roots. -/
theorem C45_roots_partial (a0 a1 a2 a3 : ℝ) (h3 : a3 ≠ 0) (hD : disc (a2 / a3) (a1 / a3) (a0 / a3) ≤ 0) (hq : Q (a2 / a3) (a1 / a3) ≠ 0) (x : ℝ) :
    poly a0 a1 a2 a3 x = 0 ↔ x ∈ found (cubicRoots a0 a1 a2 a3) := by
  have hf := factor (a2 / a3) (a1 / a3) (a0 / a3) x hD hq
  simp only at hf
  have hp : poly a0 a1 a2 a3 x = a3 * (x ^ 3 + a2 / a3 * x ^ 2 + a1 / a3 * x + a0 / a3) := by unfold poly; field_simp
  rw [hp, hf]
  unfold cubicRoots found
  simp only [hD, hq, if_true, if_false, List.filterMap_cons, id, List.filterMap_nil, List.mem_cons, List.not_mem_nil, or_false]
  rw [mul_eq_zero, mul_eq_zero, mul_eq_zero, sub_eq_zero, sub_eq_zero, sub_eq_zero]
  simp [h3, or_assoc]

/-- **C45 (soundness).** For every polynomial of degree three, whatever is returned is a root. -/
theorem C45_sound (a0 a1 a2 a3 : ℝ) (h3 : a3 ≠ 0) (x : ℝ) (hx : x ∈ found (cubicRoots a0 a1 a2 a3)) : poly a0 a1 a2 a3 x = 0 := by
  by_cases hD : disc (a2 / a3) (a1 / a3) (a0 / a3) ≤ 0
  · by_cases hq : Q (a2 / a3) (a1 / a3) = 0
    · simp [cubicRoots, found, hD, hq] at hx
    · exact (C45_roots_partial a0 a1 a2 a3 h3 hD hq x).2 hx
  · by_cases hq : Q (a2 / a3) (a1 / a3) = 0
    · by_cases hr : R (a2 / a3) (a1 / a3) (a0 / a3) < 0
      · simp [cubicRoots, found, hD, hq, hr] at hx
      · simp only [cubicRoots, found, hD, hq, hr, if_true, if_false, List.filterMap_cons, id, List.filterMap_nil, List.mem_cons,
          List.not_mem_nil, or_false] at hx
        have hp : poly a0 a1 a2 a3 x = a3 * (x ^ 3 + a2 / a3 * x ^ 2 + a1 / a3 * x + a0 / a3) := by unfold poly; field_simp
        rw [hp]
        set b := a2 / a3
        set c := a1 / a3
        set d := a0 / a3
        set y := (2 * R b c d) ^ (1 / 3 : ℝ) with hy
        have hy3 : y ^ 3 = 2 * R b c d := by
          rw [hy, ← Real.rpow_natCast, ← Real.rpow_mul (by linarith)]; norm_num
        have hc : c = b * b / 3 := by unfold Q at hq; linarith
        have hRd : d = (9 * b * c - 2 * b * (b * b)) / 27 - 2 * R b c d := by unfold R; ring
        have : x ^ 3 + b * x ^ 2 + c * x + d = 0 := by
          rw [hx, hRd, ← hy3, hc]; ring
        rw [this, mul_zero]
    · simp [cubicRoots, found, hD, hq] at hx

/-- every cubic polynomial has a real root -/
lemma has_root (b c d : ℝ) : ∃ x, x ^ 3 + b * x ^ 2 + c * x + d = 0 := by
  set M := 1 + |b| + |c| + |d| with hM
  have hM1 : 1 ≤ M := by have := abs_nonneg b; have := abs_nonneg c; have := abs_nonneg d; linarith
  have hb := neg_abs_le b; have hb' := le_abs_self b
  have hc := neg_abs_le c; have hc' := le_abs_self c
  have hd := neg_abs_le d; have hd' := le_abs_self d
  have n1 := abs_nonneg b; have n2 := abs_nonneg c; have n3 := abs_nonneg d
  have hM2 : M ≤ M ^ 2 := by nlinarith
  have k : (|b| + |c| + |d|) * M ^ 2 = M ^ 3 - M ^ 2 := by rw [hM]; ring
  have e1 : |c| * M ≤ |c| * M ^ 2 := by gcongr
  have e2 : |d| * 1 ≤ |d| * M ^ 2 := by gcongr; linarith
  have hpos : 0 ≤ M ^ 3 + b * M ^ 2 + c * M + d := by nlinarith
  have hneg : (-M) ^ 3 + b * (-M) ^ 2 + c * (-M) + d ≤ 0 := by nlinarith
  have hcont : ContinuousOn (fun x : ℝ => x ^ 3 + b * x ^ 2 + c * x + d) (Set.Icc (-M) M) := by fun_prop
  obtain ⟨x, -, hx⟩ := intermediate_value_Icc (by linarith : -M ≤ M) hcont ⟨hneg, hpos⟩
  exact ⟨x, hx⟩

/-- **C45 (finding).** For a positive discriminant (one real root) and `Q ≠ 0`, the root exists but nothing is returned; likewise for a
triple root. -/
theorem C45_single_root_missing (a0 a1 a2 a3 : ℝ) (h3 : a3 ≠ 0)
    (h : (0 < disc (a2 / a3) (a1 / a3) (a0 / a3) ∧ Q (a2 / a3) (a1 / a3) ≠ 0) ∨
      (disc (a2 / a3) (a1 / a3) (a0 / a3) = 0 ∧ Q (a2 / a3) (a1 / a3) = 0)) :
    found (cubicRoots a0 a1 a2 a3) = [] ∧ ∃ x, poly a0 a1 a2 a3 x = 0 := by
  constructor
  · rcases h with ⟨hD, hq⟩ | ⟨hD, hq⟩
    · simp [cubicRoots, found, not_le.2 hD, hq]
    · simp [cubicRoots, found, hD, hq]
  · obtain ⟨x, hx⟩ := has_root (a2 / a3) (a1 / a3) (a0 / a3)
    refine ⟨x, ?_⟩
    have hp : poly a0 a1 a2 a3 x = a3 * (x ^ 3 + a2 / a3 * x ^ 2 + a1 / a3 * x + a0 / a3) := by unfold poly; field_simp
    rw [hp, hx, mul_zero]

/- x^3 - x has three roots, x^3 + x has one, (x-1)^3 a triple root -/
example : disc ((0 : ℝ) / 1) (-1 / 1) (0 / 1) ≤ 0 ∧ Q ((0 : ℝ) / 1) (-1 / 1) ≠ 0 := by unfold disc Q R; norm_num
example : 0 < disc ((0 : ℝ) / 1) (1 / 1) (0 / 1) ∧ Q ((0 : ℝ) / 1) (1 / 1) ≠ 0 := by unfold disc Q R; norm_num
example : disc ((-3 : ℝ) / 1) (3 / 1) (-1 / 1) = 0 ∧ Q ((-3 : ℝ) / 1) (3 / 1) = 0 := by unfold disc Q R; norm_num

end Foxes.Props.Cubic
