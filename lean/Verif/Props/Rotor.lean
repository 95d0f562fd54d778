import Verif.Model.Rotor
import Verif.Props.Frames
import Mathlib.Analysis.MeanInequalities
import Mathlib.Analysis.MeanInequalitiesPow
import Mathlib.Algebra.Order.BigOperators.Ring.Finset
import Mathlib.Tactic.GCongr
import Mathlib.Algebra.BigOperators.Intervals
/-
C30: rotor averages.
-/
namespace Foxes.Props.Rotor
open Foxes.Rotor Foxes.WindDir Foxes.Frames
open scoped Classical

/-! ### Weights of the grid rotor -/

lemma sampleCoord_eq (n nint i k : ℕ) (hn : 1 ≤ n) (hk : 1 ≤ nint) :
    sampleCoord n nint i k = (2 * ((i * nint + k : ℕ) : ℝ) + 1 - (n * nint : ℕ)) / (n * nint : ℕ) := by
  have h1 : (n : ℝ) ≠ 0 := by positivity
  have h2 : (nint : ℝ) ≠ 0 := by positivity
  unfold sampleCoord gridCoord
  push_cast
  field_simp
  ring

/-- some sample lies close to the centre -/
lemma central_sample (n nint : ℕ) (hn : 1 ≤ n) (hk : 1 ≤ nint) :
    ∃ i < n, ∃ k < nint, sampleCoord n nint i k ^ 2 ≤ 1 / 4 := by
  set m := n * nint with hm
  have hm1 : 1 ≤ m := Nat.mul_pos hn hk
  refine ⟨m / 2 / nint, ?_, m / 2 % nint, Nat.mod_lt _ hk, ?_⟩
  · rw [Nat.div_lt_iff_lt_mul hk]; omega
  · rw [sampleCoord_eq n nint _ _ hn hk, ← hm]
    have e : m / 2 / nint * nint + m / 2 % nint = m / 2 := by rw [mul_comm]; exact Nat.div_add_mod _ _
    rw [e]
    rcases Nat.even_or_odd m with ⟨q, hq⟩ | ⟨q, hq⟩
    · have h2 : m / 2 = q := by omega
      have hq1 : 1 ≤ q := by omega
      have hqr : (1 : ℝ) ≤ q := by exact_mod_cast hq1
      rw [h2, hq]
      push_cast
      have : (2 * (q : ℝ) + 1 - (q + q)) / (q + q) = 1 / (2 * q) := by ring
      rw [this, div_pow, one_pow, div_le_div_iff₀ (by positivity) (by norm_num)]
      nlinarith
    · have h2 : m / 2 = q := by omega
      rw [h2, hq]
      push_cast
      have : (2 * (q : ℝ) + 1 - (2 * q + 1)) / (2 * q + 1) = 0 := by ring
      rw [this]; norm_num

lemma gridRaw_nonneg (n nint : ℕ) (c : ℕ × ℕ) : 0 ≤ gridRaw n nint c := by unfold gridRaw; positivity

lemma gridCells_pos (n nint : ℕ) (hn : 1 ≤ n) (hk : 1 ≤ nint) : 0 < ∑ c ∈ gridCells n nint true, gridRaw n nint c := by
  obtain ⟨i, hi, k, hk', hs⟩ := central_sample n nint hn hk
  have hpos : 0 < gridRaw n nint (i, i) := by
    unfold gridRaw
    apply div_pos
    · have : (k, k) ∈ (Finset.range nint ×ˢ Finset.range nint).filter
          (fun kl => √(sampleCoord n nint i kl.1 ^ 2 + sampleCoord n nint i kl.2 ^ 2) ≤ 1) := by
        rw [Finset.mem_filter, Finset.mem_product]
        refine ⟨⟨Finset.mem_range.2 hk', Finset.mem_range.2 hk'⟩, ?_⟩
        rw [Real.sqrt_le_one]
        simp only; linarith
      exact_mod_cast Finset.card_pos.2 ⟨_, this⟩
    · positivity
  refine lt_of_lt_of_le hpos (Finset.single_le_sum (f := gridRaw n nint) (fun c _ => gridRaw_nonneg n nint c) ?_)
  unfold gridCells
  simp [hi, hpos]

/-- **C30 (grid rotor weights).** For every grid size and sub-resolution, with and without reduction to the rotor disc: there is a rotor
point, all weights are positive, they sum to one, and all points lie within the square around the rotor disc. -/
theorem C30_grid_weights (n nint : ℕ) (reduce : Bool) (hn : 1 ≤ n) (hk : 1 ≤ nint) :
    (gridCells n nint reduce).Nonempty ∧ (∀ c ∈ gridCells n nint reduce, 0 < gridWeight n nint reduce c) ∧
    ∑ c ∈ gridCells n nint reduce, gridWeight n nint reduce c = 1 ∧
    ∀ c ∈ gridCells n nint reduce, |(gridPoint n c).y| < 1 ∧ |(gridPoint n c).z| < 1 := by
  have hcoord : ∀ i < n, |gridCoord n i| < 1 := by
    intro i hi
    have h1 : (0 : ℝ) < n := by exact_mod_cast hn
    have h2 : (i : ℝ) + 1 ≤ n := by exact_mod_cast hi
    have h3 : (0 : ℝ) ≤ i := by positivity
    unfold gridCoord
    rw [abs_lt]
    constructor
    · have : 0 < ((i : ℝ) + 1 / 2) * (2 / n) := by positivity
      linarith
    · have : ((i : ℝ) + 1 / 2) * (2 / n) < 2 := by
        rw [mul_div_assoc', div_lt_iff₀ h1]; linarith
      linarith
  have hsub : ∀ c ∈ gridCells n nint reduce, c.1 < n ∧ c.2 < n := by
    intro c hc
    unfold gridCells at hc
    cases reduce <;> simp at hc
    · exact hc
    · exact hc.1
  refine ⟨?_, ?_, ?_, fun c hc => ⟨hcoord _ (hsub c hc).1, hcoord _ (hsub c hc).2⟩⟩
  · cases reduce
    · exact ⟨(0, 0), by simp [gridCells]; omega⟩
    · by_contra h
      rw [Finset.not_nonempty_iff_eq_empty] at h
      have := gridCells_pos n nint hn hk
      rw [h] at this; simp at this
  · intro c hc
    have hp := gridCells_pos n nint hn hk
    cases reduce
    · simp only [gridWeight]; simp; omega
    · simp only [gridWeight, if_true]
      apply div_pos _ hp
      simp [gridCells] at hc
      exact hc.2
  · have hp := gridCells_pos n nint hn hk
    cases reduce
    · simp only [gridWeight, gridCells]
      simp
      have : (n : ℝ) ≠ 0 := by positivity
      field_simp
    · simp only [gridWeight, if_true]
      rw [← Finset.sum_div]; exact div_self hp.ne'

/-! symmetry -/

lemma sample_reflect (n nint i k : ℕ) (hi : i < n) (hk : k < nint) :
    sampleCoord n nint (n - 1 - i) (nint - 1 - k) = -sampleCoord n nint i k := by
  have h1 : (n : ℝ) ≠ 0 := by have : 0 < n := by omega
                              positivity
  have h2 : (nint : ℝ) ≠ 0 := by have : 0 < nint := by omega
                                 positivity
  unfold sampleCoord gridCoord
  rw [Nat.cast_sub (by omega), Nat.cast_sub (by omega), Nat.cast_sub (by omega), Nat.cast_sub (by omega)]
  push_cast
  field_simp
  ring

lemma coord_reflect (n i : ℕ) (hi : i < n) : gridCoord n (n - 1 - i) = -gridCoord n i := by
  have h1 : (n : ℝ) ≠ 0 := by have : 0 < n := by omega
                              positivity
  unfold gridCoord
  rw [Nat.cast_sub (by omega), Nat.cast_sub (by omega)]
  push_cast
  field_simp
  ring

lemma raw_reflect (n nint : ℕ) (c : ℕ × ℕ) (hc : c.1 < n) : gridRaw n nint (n - 1 - c.1, c.2) = gridRaw n nint c := by
  unfold gridRaw
  congr 2
  refine Finset.card_bij (fun kl _ => (nint - 1 - kl.1, kl.2)) ?_ ?_ ?_
  · intro kl h
    simp only [Finset.mem_filter, Finset.mem_product, Finset.mem_range] at h ⊢
    refine ⟨⟨by omega, h.1.2⟩, ?_⟩
    have e := sample_reflect n nint (n - 1 - c.1) kl.1 (by omega) h.1.1
    have : n - 1 - (n - 1 - c.1) = c.1 := by omega
    rw [this] at e
    rw [e, neg_sq]; exact h.2
  · intro a ha b hb hab
    simp only [Finset.mem_filter, Finset.mem_product, Finset.mem_range] at ha hb
    simp only [Prod.mk.injEq] at hab
    ext <;> omega
  · intro b hb
    simp only [Finset.mem_filter, Finset.mem_product, Finset.mem_range] at hb
    refine ⟨(nint - 1 - b.1, b.2), ?_, by ext <;> simp; omega⟩
    simp only [Finset.mem_filter, Finset.mem_product, Finset.mem_range]
    refine ⟨⟨by omega, hb.1.2⟩, ?_⟩
    rw [sample_reflect n nint c.1 b.1 hc hb.1.1, neg_sq]; exact hb.2

lemma raw_swap (n nint : ℕ) (c : ℕ × ℕ) : gridRaw n nint (c.2, c.1) = gridRaw n nint c := by
  unfold gridRaw
  congr 2
  refine Finset.card_bij (fun kl _ => (kl.2, kl.1)) ?_ ?_ ?_
  · intro kl h
    simp only [Finset.mem_filter, Finset.mem_product, Finset.mem_range] at h ⊢
    exact ⟨⟨h.1.2, h.1.1⟩, by rw [add_comm]; exact h.2⟩
  · intro a _ b _ hab
    simp only [Prod.mk.injEq] at hab
    ext
    · exact hab.2
    · exact hab.1
  · intro b hb
    simp only [Finset.mem_filter, Finset.mem_product, Finset.mem_range] at hb
    exact ⟨(b.2, b.1), by simp only [Finset.mem_filter, Finset.mem_product, Finset.mem_range]
                          exact ⟨⟨hb.1.2, hb.1.1⟩, by rw [add_comm]; exact hb.2⟩, rfl⟩

lemma weight_reflect (n nint : ℕ) (r : Bool) (c : ℕ × ℕ) (hc : c.1 < n) : gridWeight n nint r (n - 1 - c.1, c.2) = gridWeight n nint r c := by
  unfold gridWeight; rw [raw_reflect n nint c hc]

lemma weight_swap (n nint : ℕ) (r : Bool) (c : ℕ × ℕ) : gridWeight n nint r (c.2, c.1) = gridWeight n nint r c := by
  unfold gridWeight; rw [raw_swap]

lemma mem_cells (n nint : ℕ) (r : Bool) (c : ℕ × ℕ) :
    c ∈ gridCells n nint r ↔ (c.1 < n ∧ c.2 < n) ∧ (r = true → gridRaw n nint c > 0) := by
  unfold gridCells
  cases r <;> simp

lemma first_moment (n nint : ℕ) (r : Bool) : ∑ c ∈ gridCells n nint r, gridCoord n c.1 * gridWeight n nint r c = 0 := by
  have e : ∑ c ∈ gridCells n nint r, gridCoord n c.1 * gridWeight n nint r c
      = ∑ c ∈ gridCells n nint r, -(gridCoord n c.1 * gridWeight n nint r c) := by
    refine Finset.sum_nbij' (fun c => (n - 1 - c.1, c.2)) (fun c => (n - 1 - c.1, c.2)) ?_ ?_ ?_ ?_ ?_
    · intro c hc
      rw [mem_cells] at hc ⊢
      exact ⟨⟨by have := hc.1.1; simp only; omega, hc.1.2⟩, by rw [raw_reflect n nint c hc.1.1]; exact hc.2⟩
    · intro c hc
      rw [mem_cells] at hc ⊢
      exact ⟨⟨by have := hc.1.1; simp only; omega, hc.1.2⟩, by rw [raw_reflect n nint c hc.1.1]; exact hc.2⟩
    · intro c hc
      rw [mem_cells] at hc
      ext <;> simp; omega
    · intro c hc
      rw [mem_cells] at hc
      ext <;> simp; omega
    · intro c hc
      rw [mem_cells] at hc
      simp only
      rw [coord_reflect n c.1 hc.1.1, weight_reflect n nint r c hc.1.1]; ring
  rw [Finset.sum_neg_distrib] at e
  linarith

lemma second_moment (n nint : ℕ) (r : Bool) : ∑ c ∈ gridCells n nint r, gridCoord n c.2 * gridWeight n nint r c = 0 := by
  rw [← first_moment n nint r]
  refine Finset.sum_nbij' (fun c => (c.2, c.1)) (fun c => (c.2, c.1)) ?_ ?_ ?_ ?_ ?_
  · intro c hc
    rw [mem_cells] at hc ⊢
    exact ⟨⟨hc.1.2, hc.1.1⟩, by rw [raw_swap]; exact hc.2⟩
  · intro c hc
    rw [mem_cells] at hc ⊢
    exact ⟨⟨hc.1.2, hc.1.1⟩, by rw [raw_swap]; exact hc.2⟩
  · intro c _; rfl
  · intro c _; rfl
  · intro c _; simp only; rw [weight_swap]

/-- **C30 (linear fields).** For every grid rotor, the rotor average of a field that is linear over the rotor (linear shear or veer) is
its value at the hub. -/
theorem C30_grid_linear_field (n nint : ℕ) (reduce : Bool) (hn : 1 ≤ n) (hk : 1 ≤ nint) (a b c : ℝ) :
    evalOther (gridCells n nint reduce) (gridWeight n nint reduce) (fun p => a + b * (gridPoint n p).y + c * (gridPoint n p).z) = a := by
  unfold evalOther gridPoint
  have h1 := (C30_grid_weights n nint reduce hn hk).2.2.1
  have e : ∀ p ∈ gridCells n nint reduce, (a + b * gridCoord n p.1 + c * gridCoord n p.2) * gridWeight n nint reduce p
      = a * gridWeight n nint reduce p + b * (gridCoord n p.1 * gridWeight n nint reduce p) + c * (gridCoord n p.2 * gridWeight n nint reduce p) :=
    fun p _ => by ring
  rw [Finset.sum_congr rfl e, Finset.sum_add_distrib, Finset.sum_add_distrib, ← Finset.mul_sum, ← Finset.mul_sum, ← Finset.mul_sum,
    h1, first_moment, second_moment]
  ring

example : 1 ≤ 4 ∧ 1 ≤ 200 := by decide

/-! ### Level rotor -/

lemma levelRaw_nonneg (n nint i : ℕ) : 0 ≤ levelRaw n nint i := by unfold levelRaw; positivity

/-- **C30 (level rotor weights).** The same for the level rotor, for a sub-resolution of at least three points. -/
theorem C30_level_weights_partial (n nint : ℕ) (hn : 1 ≤ n) (hk : 3 ≤ nint) :
    (levels n nint).Nonempty ∧ (∀ i ∈ levels n nint, 0 < levelWeight n nint i) ∧ ∑ i ∈ levels n nint, levelWeight n nint i = 1 := by
  obtain ⟨i, hi, l, hl, hs⟩ := central_sample n nint hn (by omega)
  have hx : ∃ k < nint, levelX nint k ^ 2 ≤ 1 / 4 := by
    have hc : (3 : ℝ) ≤ nint := by exact_mod_cast hk
    refine ⟨nint / 2, by omega, ?_⟩
    unfold levelX
    rw [if_neg (by omega)]
    have e : 1 + ((nint / 2 : ℕ) : ℝ) * (-2 / ((nint : ℝ) - 1)) = ((nint : ℝ) - 1 - 2 * ((nint / 2 : ℕ) : ℝ)) / ((nint : ℝ) - 1) := by
      have : (nint : ℝ) - 1 ≠ 0 := by linarith
      field_simp; ring
    rw [e]
    rcases Nat.even_or_odd nint with ⟨q, hq⟩ | ⟨q, hq⟩
    · have h2 : nint / 2 = q := by omega
      have h4 : (4 : ℝ) ≤ nint := by have : 4 ≤ nint := by omega
                                     exact_mod_cast this
      have hq' : (nint : ℝ) = q + q := by exact_mod_cast hq
      rw [h2, div_pow, div_le_div_iff₀ (by have : 0 < (nint : ℝ) - 1 := by linarith
                                           positivity) (by norm_num)]
      have : (nint : ℝ) - 1 - 2 * q = -1 := by linarith
      rw [this]; nlinarith
    · have h2 : nint / 2 = q := by omega
      have hq' : (nint : ℝ) = 2 * q + 1 := by exact_mod_cast hq
      have : (nint : ℝ) - 1 - 2 * q = 0 := by linarith
      rw [h2, this]; norm_num
  obtain ⟨k, hk', hx⟩ := hx
  have hpos : 0 < levelRaw n nint i := by
    unfold levelRaw
    apply div_pos
    · have : (k, l) ∈ (Finset.range nint ×ˢ Finset.range nint).filter
          (fun kl => √(levelX nint kl.1 ^ 2 + sampleCoord n nint i kl.2 ^ 2) ≤ 1) := by
        rw [Finset.mem_filter, Finset.mem_product]
        refine ⟨⟨Finset.mem_range.2 hk', Finset.mem_range.2 hl⟩, ?_⟩
        rw [Real.sqrt_le_one]
        simp only; linarith
      exact_mod_cast Finset.card_pos.2 ⟨_, this⟩
    · positivity
  have hmem : i ∈ levels n nint := by simp [levels, hi, hpos]
  have hsum : 0 < ∑ j ∈ levels n nint, levelRaw n nint j :=
    lt_of_lt_of_le hpos (Finset.single_le_sum (f := levelRaw n nint) (fun c _ => levelRaw_nonneg n nint c) hmem)
  refine ⟨⟨i, hmem⟩, ?_, ?_⟩
  · intro j hj
    simp only [levels, Finset.mem_filter] at hj
    exact div_pos hj.2 hsum
  · unfold levelWeight
    rw [← Finset.sum_div]; exact div_self hsum.ne'

/-- **C30 (level rotor, limit).** With a sub-resolution of two, the level rotor has no rotor point at all, for every number of levels. -/
theorem C30_level_empty (n : ℕ) (hn : 1 ≤ n) : levels n 2 = ∅ := by
  unfold levels
  rw [Finset.filter_eq_empty_iff]
  intro i hi
  rw [Finset.mem_range] at hi
  have : levelRaw n 2 i = 0 := by
    unfold levelRaw
    have : (Finset.range 2 ×ˢ Finset.range 2).filter (fun kl => √(levelX 2 kl.1 ^ 2 + sampleCoord n 2 i kl.2 ^ 2) ≤ 1) = ∅ := by
      rw [Finset.filter_eq_empty_iff]
      intro kl hkl
      simp only [Finset.mem_product, Finset.mem_range] at hkl
      rw [Real.sqrt_le_one, not_le]
      have h1 : levelX 2 kl.1 ^ 2 = 1 := by
        have : kl.1 = 0 ∨ kl.1 = 1 := by omega
        rcases this with h | h <;> rw [h] <;> unfold levelX <;> norm_num
      have h2 : sampleCoord n 2 i kl.2 ≠ 0 := by
        rw [sampleCoord_eq n 2 _ _ hn (by norm_num)]
        have hn' : ((n * 2 : ℕ) : ℝ) ≠ 0 := by positivity
        refine div_ne_zero ?_ hn'
        have : (2 * ((i * 2 + kl.2 : ℕ) : ℤ) + 1 - ((n * 2 : ℕ) : ℤ)) ≠ 0 := by omega
        have h := Int.cast_ne_zero (α := ℝ) |>.2 this
        push_cast at h ⊢
        exact h
      have := sq_pos_of_ne_zero h2
      linarith
    rw [this]; simp
  rw [this]; simp

example : 1 ≤ 4 ∧ 3 ≤ 200 := by decide

/-! ### Rotor points -/

/-- **C30 (rotor points).** In the frame of the rotor (axis along the yaw direction), every rotor point of a design point `(0, y, z)` lies
in the rotor plane at lateral offset `y * D/2` and vertical offset `z * D/2`. -/
theorem C30_rotor_points (hub : V3) (yaw D y z : ℝ) :
    wakeCoos hub yaw (rotorPoint hub yaw D ⟨0, y, z⟩) = ⟨0, y * (D / 2), z * (D / 2)⟩ := by
  have h := Foxes.Props.Frames.n_unit yaw
  have hz : (axisN yaw).z = 0 := rfl
  simp only [wakeCoos, rotorPoint, V3.add, V3.smul, V3.sub, V3.dot, axisM, axisZ, V3.mk.injEq, hz]
  refine ⟨?_, ?_, ?_⟩
  · ring
  · linear_combination (y * (D / 2)) * h
  · ring

/-! ### Evaluation -/

lemma axial_eq (yaw wd ws : ℝ) : axial yaw wd ws = ws * Real.cos ((wd - yaw) * Real.pi / 180) := by
  have : (wd - yaw) * Real.pi / 180 = wd * Real.pi / 180 - yaw * Real.pi / 180 := by ring
  rw [this, Real.cos_sub]
  simp only [axial, wd2uv, wd2wdvec]
  ring

section
variable {ι : Type} (P : Finset ι) (w : ι → ℝ)

/-- **C30 (uniform wind).** In uniform wind, for every set of rotor points with weights summing to one: the wind direction and speed at
the rotor are those of the wind; REWS (and, for more than one point, REWS2 and REWS3) are the wind speed times the cosine of the yaw
misalignment, or zero where that is negative. -/
theorem C30_uniform_wind (h1 : ∑ p ∈ P, w p = 1) (wd ws yaw : ℝ) (h0 : 0 ≤ wd) (h360 : wd < 360) (hws : 0 < ws) :
    evalWD P w (fun _ => wd) (fun _ => ws) = wd ∧ evalWS P w (fun _ => wd) (fun _ => ws) = ws ∧
    evalREWS P w yaw (fun _ => wd) (fun _ => ws) = ws * max (Real.cos ((wd - yaw) * Real.pi / 180)) 0 ∧
    (1 < P.card → evalREWS2 P w yaw (fun _ => wd) (fun _ => ws) = ws * max (Real.cos ((wd - yaw) * Real.pi / 180)) 0 ∧
      evalREWS3 P w yaw (fun _ => wd) (fun _ => ws) = ws * max (Real.cos ((wd - yaw) * Real.pi / 180)) 0) ∧
    evalREWS P w wd (fun _ => wd) (fun _ => ws) = ws := by
  have hm : meanUV P w (fun _ => wd) (fun _ => ws) = wd2uv wd ws := by
    unfold meanUV; ext <;> simp only [← Finset.mul_sum, h1, mul_one]
  have hr : ∀ yaw, evalREWS P w yaw (fun _ => wd) (fun _ => ws) = ws * max (Real.cos ((wd - yaw) * Real.pi / 180)) 0 := by
    intro yaw
    unfold evalREWS
    rw [← Finset.mul_sum, h1, mul_one, axial_eq, mul_max_of_nonneg _ _ hws.le, mul_zero]
  set C := Real.cos ((wd - yaw) * Real.pi / 180) with hC
  refine ⟨?_, ?_, hr yaw, ?_, ?_⟩
  · unfold evalWD; rw [hm]; exact ((Foxes.Props.WindDir.C31_direction_round_trip wd ws hws).1 h0 h360).1
  · unfold evalWS; rw [hm, (Foxes.Props.WindDir.C31_convention wd ws).2.2.2.2.1, Real.sqrt_sq hws.le]
  · intro hc
    constructor
    · unfold evalREWS2
      rw [if_pos hc, ← Finset.mul_sum, h1, mul_one, axial_eq, ← hC]
      rcases lt_trichotomy C 0 with h | h | h
      · have : ws * C < 0 := mul_neg_of_pos_of_neg hws h
        rw [npSign, if_pos this, max_eq_right (by nlinarith [sq_nonneg (ws * C)]), max_eq_right h.le]; simp
      · rw [h]; simp [npSign]
      · have : 0 < ws * C := mul_pos hws h
        rw [npSign, if_neg (by linarith), if_pos this, one_mul, max_eq_left (by positivity), max_eq_left h.le, Real.sqrt_sq this.le]
    · unfold evalREWS3
      rw [if_pos hc, ← Finset.mul_sum, h1, mul_one, axial_eq, ← hC]
      rcases le_or_gt C 0 with h | h
      · have : ws * C ≤ 0 := mul_nonpos_of_nonneg_of_nonpos hws.le h
        rw [max_eq_right (by rw [pow_succ]; exact mul_nonpos_of_nonneg_of_nonpos (sq_nonneg _) this), max_eq_right h,
          Real.zero_rpow (by norm_num), mul_zero]
      · have : 0 < ws * C := mul_pos hws h
        rw [max_eq_left (by positivity), max_eq_left h.le, ← Real.rpow_natCast, ← Real.rpow_mul this.le]
        norm_num
  · rw [hr wd]; simp

/-- **C30 (bounds).** For weights that are not negative and sum to one, a rotor average lies between bounds of the point values, and REWS
lies between zero and the largest wind speed. -/
theorem C30_bounds (h0 : ∀ p ∈ P, 0 ≤ w p) (h1 : ∑ p ∈ P, w p = 1) (data wd ws : ι → ℝ) (yaw lo hi W : ℝ)
    (hlo : ∀ p ∈ P, lo ≤ data p) (hhi : ∀ p ∈ P, data p ≤ hi) (hws : ∀ p ∈ P, 0 ≤ ws p ∧ ws p ≤ W) (hW : 0 ≤ W) :
    lo ≤ evalOther P w data ∧ evalOther P w data ≤ hi ∧ 0 ≤ evalREWS P w yaw wd ws ∧ evalREWS P w yaw wd ws ≤ W := by
  refine ⟨?_, ?_, le_max_right _ _, max_le ?_ hW⟩
  · calc lo = ∑ p ∈ P, lo * w p := by rw [← Finset.mul_sum, h1, mul_one]
      _ ≤ _ := Finset.sum_le_sum (fun p hp => mul_le_mul_of_nonneg_right (hlo p hp) (h0 p hp))
  · calc _ ≤ ∑ p ∈ P, hi * w p := Finset.sum_le_sum (fun p hp => mul_le_mul_of_nonneg_right (hhi p hp) (h0 p hp))
      _ = hi := by rw [← Finset.mul_sum, h1, mul_one]
  · calc _ ≤ ∑ p ∈ P, W * w p := Finset.sum_le_sum (fun p hp => by
          refine mul_le_mul_of_nonneg_right ?_ (h0 p hp)
          rw [axial_eq]
          have c1 := Real.cos_le_one ((wd p - yaw) * Real.pi / 180)
          have := hws p hp
          nlinarith)
      _ = W := by rw [← Finset.mul_sum, h1, mul_one]

/-- **C30 (order of the rotor equivalent wind speeds).** If the wind hits all points from the front, REWS ≤ REWS2 ≤ REWS3. -/
theorem C30_rews_order (h0 : ∀ p ∈ P, 0 ≤ w p) (h1 : ∑ p ∈ P, w p = 1) (hc : 1 < P.card) (wd ws : ι → ℝ) (yaw : ℝ)
    (hfront : ∀ p ∈ P, 0 ≤ axial yaw (wd p) (ws p)) :
    evalREWS P w yaw wd ws ≤ evalREWS2 P w yaw wd ws ∧ evalREWS2 P w yaw wd ws ≤ evalREWS3 P w yaw wd ws := by
  set z := fun p => axial yaw (wd p) (ws p) with hz
  have s1 : 0 ≤ ∑ p ∈ P, z p * w p := Finset.sum_nonneg (fun p hp => mul_nonneg (hfront p hp) (h0 p hp))
  have s2 : 0 ≤ ∑ p ∈ P, z p ^ 2 * w p := Finset.sum_nonneg (fun p hp => mul_nonneg (sq_nonneg _) (h0 p hp))
  have s3 : 0 ≤ ∑ p ∈ P, z p ^ 3 * w p := Finset.sum_nonneg (fun p hp => mul_nonneg (pow_nonneg (hfront p hp) 3) (h0 p hp))
  have e1 : evalREWS P w yaw wd ws = ∑ p ∈ P, z p * w p := max_eq_left s1
  have e2 : evalREWS2 P w yaw wd ws = √(∑ p ∈ P, z p ^ 2 * w p) := by
    unfold evalREWS2
    rw [if_pos hc]
    have : ∑ p ∈ P, npSign (axial yaw (wd p) (ws p)) * axial yaw (wd p) (ws p) ^ 2 * w p = ∑ p ∈ P, z p ^ 2 * w p := by
      refine Finset.sum_congr rfl (fun p hp => ?_)
      rcases (hfront p hp).eq_or_lt with h | h
      · simp only [hz]; rw [← h]; simp
      · rw [npSign, if_neg (by linarith), if_pos h, one_mul]
    rw [this, max_eq_left s2]
  have e3 : evalREWS3 P w yaw wd ws = (∑ p ∈ P, z p ^ 3 * w p) ^ (1 / 3 : ℝ) := by
    unfold evalREWS3; rw [if_pos hc]; congr 1; exact max_eq_left s3
  rw [e1, e2, e3]
  constructor
  · apply Real.le_sqrt_of_sq_le
    have := Real.pow_arith_mean_le_arith_mean_pow P w z h0 h1 hfront 2
    simpa only [mul_comm] using this
  · have h := Real.rpow_arith_mean_le_arith_mean_rpow P w (fun p => z p ^ 2) h0 h1 (fun p _ => sq_nonneg _) (p := 3 / 2) (by norm_num)
    have h' : (∑ p ∈ P, z p ^ 2 * w p) ^ (3 / 2 : ℝ) ≤ ∑ p ∈ P, z p ^ 3 * w p := by
      have a : ∑ p ∈ P, w p * z p ^ 2 = ∑ p ∈ P, z p ^ 2 * w p := Finset.sum_congr rfl (fun p _ => mul_comm _ _)
      have b : ∑ p ∈ P, w p * (z p ^ 2) ^ (3 / 2 : ℝ) = ∑ p ∈ P, z p ^ 3 * w p := Finset.sum_congr rfl (fun p hp => by
        rw [mul_comm, ← Real.rpow_natCast, ← Real.rpow_mul (hfront p hp), ← Real.rpow_natCast]; norm_num [hz])
      rw [← a, ← b]; exact h
    rw [Real.sqrt_eq_rpow]
    calc (∑ p ∈ P, z p ^ 2 * w p) ^ (1 / 2 : ℝ) = ((∑ p ∈ P, z p ^ 2 * w p) ^ (3 / 2 : ℝ)) ^ (1 / 3 : ℝ) := by
          rw [← Real.rpow_mul s2]; norm_num
      _ ≤ _ := Real.rpow_le_rpow (by positivity) h' (by norm_num)

end

/-- **C30 (centre rotor).** With one rotor point, the centre rotor's REWS is that of the general rotor, except that it is not cut off at
zero: for a misalignment with negative cosine it is negative. -/
theorem C30_centre_rotor (yaw wd ws : ℝ) (hws : 0 < ws) :
    (0 ≤ Real.cos ((wd - yaw) * Real.pi / 180) → centreREWS yaw wd ws = evalREWS {()} (fun _ => 1) yaw (fun _ => wd) (fun _ => ws)) ∧
    (Real.cos ((wd - yaw) * Real.pi / 180) < 0 → centreREWS yaw wd ws < 0 ∧ evalREWS {()} (fun _ => 1) yaw (fun _ => wd) (fun _ => ws) = 0) := by
  unfold centreREWS evalREWS
  simp only [Finset.sum_singleton, mul_one]
  rw [axial_eq]
  constructor
  · intro h; rw [max_eq_left (by positivity)]
  · intro h
    have := mul_neg_of_pos_of_neg hws h
    exact ⟨this, max_eq_right this.le⟩

example : Real.cos ((270 - 90) * Real.pi / 180) < 0 := by
  have : (270 - 90) * Real.pi / 180 = Real.pi := by ring
  rw [this]; simp

/- two points with weights 1/2: front inflow, all hypotheses of the theorems hold -/
example : (∀ p ∈ (Finset.univ : Finset Bool), 0 ≤ (1 / 2 : ℝ)) ∧ ∑ _p ∈ (Finset.univ : Finset Bool), (1 / 2 : ℝ) = 1 ∧
    1 < (Finset.univ : Finset Bool).card ∧ ∀ p ∈ (Finset.univ : Finset Bool), 0 ≤ axial 270 270 (if p then 8 else 9) := by
  refine ⟨fun _ _ => by norm_num, by norm_num, by decide, fun p _ => ?_⟩
  rw [axial_eq]; cases p <;> norm_num


/-! ### Single points, axial offsets and the cells of the grid rotor -/

/-- **C30 (general rotor points).** A design point with relative coordinates `d`, also one off the rotor plane, lies at `d` times the rotor radius in the rotor frame. -/
theorem C30_rotor_point_offset (hub : V3) (yaw D : ℝ) (d : V3) :
    wakeCoos hub yaw (rotorPoint hub yaw D d) = ⟨d.x * (D / 2), d.y * (D / 2), d.z * (D / 2)⟩ := by
  have h := Foxes.Props.Frames.n_unit yaw
  have hz : (axisN yaw).z = 0 := rfl
  simp only [wakeCoos, rotorPoint, V3.add, V3.smul, V3.sub, V3.dot, axisM, axisZ, V3.mk.injEq, hz]
  refine ⟨?_, ?_, ?_⟩
  · linear_combination (d.x * (D / 2)) * h
  · linear_combination (d.y * (D / 2)) * h
  · ring

/-- **C30 (one rotor point).** With one point of weight one, `REWS2` is the absolute value of the axial wind speed, while `REWS` is cut at zero; `REWS3` is
the axial wind speed for front inflow. -/
theorem C30_single_point (yaw wd ws : ℝ) (hws : 0 ≤ ws) :
    evalREWS2 {()} (fun _ => 1) yaw (fun _ => wd) (fun _ => ws) = ws * |Real.cos ((wd - yaw) * Real.pi / 180)| ∧
    evalREWS {()} (fun _ => 1) yaw (fun _ => wd) (fun _ => ws) = ws * max (Real.cos ((wd - yaw) * Real.pi / 180)) 0 ∧
    (0 ≤ Real.cos ((wd - yaw) * Real.pi / 180) →
      evalREWS3 {()} (fun _ => 1) yaw (fun _ => wd) (fun _ => ws) = ws * Real.cos ((wd - yaw) * Real.pi / 180)) := by
  unfold evalREWS2 evalREWS evalREWS3
  simp only [Finset.card_singleton, lt_irrefl, if_false, Finset.sum_singleton, mul_one, gt_iff_lt]
  rw [axial_eq]
  refine ⟨?_, ?_, fun h => ?_⟩
  · rw [Real.sqrt_sq_eq_abs, abs_mul, abs_of_nonneg hws]
  · rw [mul_max_of_nonneg _ _ hws, mul_zero]
  · have h3 : 0 ≤ ws * Real.cos ((wd - yaw) * Real.pi / 180) := mul_nonneg hws h
    rw [← Real.rpow_natCast, ← Real.rpow_mul h3]
    norm_num

/-- The sample points of cell `c` of a grid of `n` times `n` cells with `nint` times `nint` samples each that lie in the unit disc: the samples are the midpoints
of a division of the square [-1, 1]² into `n * nint` times `n * nint` parts. -/
noncomputable def discSamples (n nint : ℕ) (c : ℕ × ℕ) : ℕ :=
  ((Finset.range nint ×ˢ Finset.range nint).filter (fun kl =>
    ((2 * ((c.1 * nint + kl.1 : ℕ) : ℝ) + 1 - (n * nint : ℕ)) / (n * nint : ℕ)) ^ 2 +
    ((2 * ((c.2 * nint + kl.2 : ℕ) : ℝ) + 1 - (n * nint : ℕ)) / (n * nint : ℕ)) ^ 2 ≤ 1)).card

lemma gridRaw_eq (n nint : ℕ) (hn : 1 ≤ n) (hk : 1 ≤ nint) (c : ℕ × ℕ) : gridRaw n nint c = discSamples n nint c / (nint : ℝ) ^ 2 := by
  unfold gridRaw discSamples
  congr 3
  refine Finset.filter_congr (fun kl _ => ?_)
  rw [Real.sqrt_le_one, sampleCoord_eq n nint _ _ hn hk, sampleCoord_eq n nint _ _ hn hk]

/-- **C30 (cells of the grid rotor).** With reduction, the rotor points are the cells that have a sample in the unit disc, and their weights are proportional to the
number of such samples. -/
theorem C30_grid_cells (n nint : ℕ) (hn : 1 ≤ n) (hk : 1 ≤ nint) :
    (∀ c, c ∈ gridCells n nint true ↔ c.1 < n ∧ c.2 < n ∧ 0 < discSamples n nint c) ∧
    (∀ c, gridWeight n nint true c * ∑ c' ∈ gridCells n nint true, (discSamples n nint c' : ℝ) = discSamples n nint c) := by
  have h2 : (0 : ℝ) < (nint : ℝ) ^ 2 := by positivity
  constructor
  · intro c
    rw [mem_cells, gridRaw_eq n nint hn hk]
    constructor
    · rintro ⟨h, h'⟩
      refine ⟨h.1, h.2, ?_⟩
      have := h' rfl
      by_contra h0
      have e : discSamples n nint c = 0 := by omega
      rw [e] at this; simp at this
    · rintro ⟨h, h', h''⟩
      exact ⟨⟨h, h'⟩, fun _ => by positivity⟩
  · intro c
    have hp := gridCells_pos n nint hn hk
    have e : ∑ c' ∈ gridCells n nint true, gridRaw n nint c' = (∑ c' ∈ gridCells n nint true, (discSamples n nint c' : ℝ)) / (nint : ℝ) ^ 2 := by
      rw [Finset.sum_div]
      exact Finset.sum_congr rfl (fun c' _ => gridRaw_eq n nint hn hk c')
    rw [e] at hp
    have hp' : (0 : ℝ) < ∑ c' ∈ gridCells n nint true, (discSamples n nint c' : ℝ) := by
      rcases div_pos_iff.1 hp with h | h
      · exact h.1
      · linarith [h.2]
    simp only [gridWeight, if_true]
    rw [e, gridRaw_eq n nint hn hk]
    field_simp

/-- all samples of the middle cell of three are in the disc -/
example : 1 ≤ 3 ∧ 1 ≤ 10 := by decide

end Foxes.Props.Rotor
