import Verif.Model.FarmEval
import Mathlib.Tactic.Linarith
import Mathlib.Tactic.NormNum
import Mathlib.Tactic.Ring
import Mathlib.Tactic.FieldSimp
import Mathlib.Tactic.Positivity
import Mathlib.Algebra.BigOperators.Field
/-
C39: evaluation of farm results.
-/
namespace Foxes.Props.FarmEval
open Foxes.FarmEval

noncomputable section
open scoped Classical

/-- weights of a weighted mean for turbine `j`: not negative, with sum one -/
def IsMeanWeights {S T : ℕ} (w : Weights S T) (j : Fin T) : Prop := (∀ i, 0 ≤ w.at i j) ∧ ∑ i, w.at i j = 1

/-- a table of numbers as result variable -/
def ofReal {S T : ℕ} (x : Fin S → Fin T → ℝ) : Mat S T := fun i j => some (x i j)

lemma noNan_ofReal {S T : ℕ} (x : Fin S → Fin T → ℝ) : NoNan (ofReal x) := by intro i j; simp [ofReal]

lemma sel_ofReal {S T : ℕ} (x : Fin S → Fin T → ℝ) (i : Fin S) : Sel [ofReal x] i := by
  intro f hf j; simp only [List.mem_singleton] at hf; subst hf; simp [ofReal]

lemma terms_ofReal {S T : ℕ} (w : Weights S T) (x : Fin S → Fin T → ℝ) (i : Fin S) (j : Fin T) :
    terms w [ofReal x] i j = some (x i j * w.at i j) := by
  unfold terms selWeight prodAt
  rw [if_pos (sel_ofReal x i), if_pos (fun i => sel_ofReal x i)]
  simp [ofReal]

lemma osum_some {ι : Type} [Fintype ι] (f : ι → ℝ) : osum (fun i => some (f i)) = some (∑ i, f i) := by
  unfold osum; simp

lemma noNan_eq {S T : ℕ} (v : Mat S T) (h : NoNan v) : v = ofReal (num v) := by
  funext i j
  unfold ofReal num
  cases hv : v i j with
  | none => exact absurd hv (h i j)
  | some x => rfl

lemma reduce_weights {S T : ℕ} (w : Weights S T) (x : Fin S → Fin T → ℝ) (j : Fin T) :
    reduceStates w "weights" (ofReal x) j = some (∑ i, x i j * w.at i j) := by
  unfold reduceStates weinsumT
  rw [if_pos (noNan_ofReal x), if_pos rfl]
  simp only [terms_ofReal]
  exact osum_some _

/-- **C39 (normalised weights).** With `normalize=True` the weights of farm results sum to one for each turbine and keep their proportions, for all weights
of the states with a sum that is not zero. -/
theorem C39_weights_normalized {S T : ℕ} (w : Weights S T) (j : Fin T) (h : ∑ i, w.at i j ≠ 0) :
    ∑ i, (resultWeights true w).at i j = 1 ∧
    (∀ i k, (resultWeights true w).at i j * w.at k j = (resultWeights true w).at k j * w.at i j) ∧
    ((∀ i, 0 ≤ w.at i j) → IsMeanWeights (resultWeights true w) j) := by
  have e : ∀ i, (resultWeights true w).at i j = w.at i j / ∑ k, w.at k j := by
    intro i; cases w <;> rfl
  have h1 : ∑ i, (resultWeights true w).at i j = 1 := by
    simp only [e]
    rw [← Finset.sum_div, div_self h]
  refine ⟨h1, ?_, ?_⟩
  · intro i k; rw [e, e]; ring
  · intro hw
    refine ⟨?_, h1⟩
    intro i; rw [e]
    exact div_nonneg (hw i) (Finset.sum_nonneg (fun k _ => hw k))

/-- **C39 (default weights, finding).** By default the weights of the results are those of the states: the weighted "mean" of a constant is the constant times the
sum of the weights of the states, which is the constant only if they sum to one. -/
theorem C39_default_weights {S T : ℕ} (w : Weights S T) (c : ℝ) (hc : c ≠ 0) (j : Fin T) :
    (∀ i, (resultWeights false w).at i j = w.at i j) ∧
    calcStatesMean (resultWeights false w) true (ofReal fun _ _ => c) j = some (c * ∑ i, w.at i j) ∧
    (calcStatesMean (resultWeights false w) true (ofReal fun _ _ => c) j = some c ↔ ∑ i, w.at i j = 1) := by
  have h : calcStatesMean (resultWeights false w) true (ofReal fun _ _ => c) j = some (c * ∑ i, w.at i j) := by
    have := reduce_weights w (fun _ _ => c) j
    rw [← Finset.mul_sum] at this
    exact this
  refine ⟨fun _ => rfl, h, ?_⟩
  rw [h, Option.some.injEq]
  constructor
  · intro h'; exact mul_left_cancel₀ hc (by rw [h', mul_one])
  · intro h'; rw [h', mul_one]

/-- weights in percent: all means are a hundred times too large -/
example : ∃ w : Weights 2 1, ∑ i, w.at i 0 = 100 := ⟨.s (fun _ => 50), by simp [Weights.at]; norm_num⟩

/-- **C39 (outputs).** With a selection of output variables the results are returned if they are not to be normalised; with normalisation (finding) only if
`weight` is among them. -/
theorem C39_outputs_need_weight (farmVars outputs : List String) :
    farmResultsReturned false farmVars (some outputs) = true ∧
    (farmResultsReturned true farmVars (some outputs) = true ↔ "weight" ∈ outputs ∧ "weight" ∈ farmVars) := by
  simp [farmResultsReturned, List.mem_filter]

/-- **C39 (means).** The weighted mean over states is the sum of weight times value; it lies between any bounds of the values, and for
a constant it is that constant. -/
theorem C39_states_mean {S T : ℕ} (w : Weights S T) (x : Fin S → Fin T → ℝ) (j : Fin T) (hw : IsMeanWeights w j) :
    ∃ m, calcStatesMean w true (ofReal x) j = some m ∧ m = ∑ i, w.at i j * x i j ∧
      (∀ lo, (∀ i, lo ≤ x i j) → lo ≤ m) ∧ (∀ hi, (∀ i, x i j ≤ hi) → m ≤ hi) ∧ (∀ c, (∀ i, x i j = c) → m = c) := by
  refine ⟨∑ i, x i j * w.at i j, ?_, ?_, ?_, ?_, ?_⟩
  · unfold calcStatesMean; exact reduce_weights w x j
  · exact Finset.sum_congr rfl (fun i _ => mul_comm _ _)
  · intro lo hlo
    calc lo = ∑ i, lo * w.at i j := by rw [← Finset.mul_sum, hw.2, mul_one]
      _ ≤ _ := Finset.sum_le_sum (fun i _ => mul_le_mul_of_nonneg_right (hlo i) (hw.1 i))
  · intro hi hhi
    calc _ ≤ ∑ i, hi * w.at i j := Finset.sum_le_sum (fun i _ => mul_le_mul_of_nonneg_right (hhi i) (hw.1 i))
      _ = hi := by rw [← Finset.mul_sum, hw.2, mul_one]
  · intro c hc
    simp only [hc]
    rw [← Finset.mul_sum, hw.2, mul_one]

/-- **C39 (operations).** The operations without weights over the states: mean, sum, smallest and largest value, standard deviation
(with division by the number of states), for at least one state. -/
theorem C39_states_ops {S T : ℕ} (w : Weights S T) (x : Fin S → Fin T → ℝ) (j : Fin T) (hS : 0 < S) :
    (∃ m, reduceStates w "mean_no_weights" (ofReal x) j = some m ∧ m * S = ∑ i, x i j) ∧
    reduceStates w "sum" (ofReal x) j = some (∑ i, x i j) ∧
    (∃ m, reduceStates w "min" (ofReal x) j = some m ∧ (∀ i, m ≤ x i j) ∧ ∃ i, m = x i j) ∧
    (∃ m, reduceStates w "max" (ofReal x) j = some m ∧ (∀ i, x i j ≤ m) ∧ ∃ i, m = x i j) ∧
    (∃ m s, reduceStates w "mean_no_weights" (ofReal x) j = some m ∧ reduceStates w "std" (ofReal x) j = some s ∧ 0 ≤ s ∧
      s ^ 2 * S = ∑ i, (x i j - m) ^ 2) := by
  have hS' : (S : ℝ) ≠ 0 := by exact_mod_cast hS.ne'
  have e : ∀ i, num (ofReal x) i j = x i j := fun i => rfl
  have key : ∀ op, op ≠ "weights" → reduceStates w op (ofReal x) j = npOp op (fun i => x i j) := by
    intro op hop
    unfold reduceStates
    rw [if_pos (noNan_ofReal x), if_neg hop]
    simp only [e]
  have hmean : reduceStates w "mean_no_weights" (ofReal x) j = some ((∑ i, x i j) / S) := by
    rw [key _ (by decide)]; simp [npOp, hS.ne']
  refine ⟨⟨_, hmean, by field_simp⟩, ?_, ?_, ?_, ?_⟩
  · rw [key _ (by decide)]; simp [npOp]
  · refine ⟨Finset.univ.inf' ⟨⟨0, hS⟩, Finset.mem_univ _⟩ (fun i => x i j), ?_, ?_, ?_⟩
    · rw [key _ (by decide)]; simp [npOp, hS]
    · intro i; exact Finset.inf'_le _ (Finset.mem_univ i)
    · obtain ⟨i, _, hi⟩ := Finset.exists_mem_eq_inf' (s := (Finset.univ : Finset (Fin S))) ⟨⟨0, hS⟩, Finset.mem_univ _⟩ (fun i => x i j)
      exact ⟨i, hi⟩
  · refine ⟨Finset.univ.sup' ⟨⟨0, hS⟩, Finset.mem_univ _⟩ (fun i => x i j), ?_, ?_, ?_⟩
    · rw [key _ (by decide)]; simp [npOp, hS]
    · intro i; exact Finset.le_sup' (fun i => x i j) (Finset.mem_univ i)
    · obtain ⟨i, _, hi⟩ := Finset.exists_mem_eq_sup' (s := (Finset.univ : Finset (Fin S))) ⟨⟨0, hS⟩, Finset.mem_univ _⟩ (fun i => x i j)
      exact ⟨i, hi⟩
  · refine ⟨_, Real.sqrt ((∑ i, (x i j - (∑ k, x k j) / S) ^ 2) / S), hmean, ?_, Real.sqrt_nonneg _, ?_⟩
    · rw [key _ (by decide)]; simp [npOp, hS.ne']
    · rw [Real.sq_sqrt (by positivity), div_mul_cancel₀ _ hS']

/-- **C39 (turbines).** The operations over the turbines in a state. -/
theorem C39_turbine_ops {S T : ℕ} (w : Weights S T) (x : Fin S → Fin T → ℝ) (i : Fin S) (hT : 0 < T) :
    (∃ m, reduceTurbines w "mean_no_weights" (ofReal x) i = some m ∧ m * T = ∑ j, x i j) ∧
    reduceTurbines w "sum" (ofReal x) i = some (∑ j, x i j) ∧
    reduceTurbines w "weights" (ofReal x) i = some (∑ j, x i j * w.at i j) ∧
    (∃ m, reduceTurbines w "min" (ofReal x) i = some m ∧ (∀ j, m ≤ x i j) ∧ ∃ j, m = x i j) ∧
    (∃ m, reduceTurbines w "max" (ofReal x) i = some m ∧ (∀ j, x i j ≤ m) ∧ ∃ j, m = x i j) := by
  have hT' : (T : ℝ) ≠ 0 := by exact_mod_cast hT.ne'
  have e : ∀ j, num (ofReal x) i j = x i j := fun i => rfl
  have key : ∀ op, op ≠ "weights" → op ≠ "std" → reduceTurbines w op (ofReal x) i = npOp op (fun j => x i j) := by
    intro op hop hstd
    unfold reduceTurbines
    rw [if_pos (noNan_ofReal x), if_neg hop, if_neg hstd]
    simp only [e]
  refine ⟨⟨(∑ j, x i j) / T, ?_, by field_simp⟩, ?_, ?_, ?_, ?_⟩
  · rw [key _ (by decide) (by decide)]; simp [npOp, hT.ne']
  · rw [key _ (by decide) (by decide)]; simp [npOp]
  · unfold reduceTurbines weinsumS
    rw [if_pos (noNan_ofReal x), if_pos rfl]
    simp only [terms_ofReal]
    exact osum_some _
  · refine ⟨Finset.univ.inf' ⟨⟨0, hT⟩, Finset.mem_univ _⟩ (fun j => x i j), ?_, ?_, ?_⟩
    · rw [key _ (by decide) (by decide)]; simp [npOp, hT]
    · intro j; exact Finset.inf'_le _ (Finset.mem_univ j)
    · obtain ⟨j, _, hj⟩ := Finset.exists_mem_eq_inf' (s := (Finset.univ : Finset (Fin T))) ⟨⟨0, hT⟩, Finset.mem_univ _⟩ (fun j => x i j)
      exact ⟨j, hj⟩
  · refine ⟨Finset.univ.sup' ⟨⟨0, hT⟩, Finset.mem_univ _⟩ (fun j => x i j), ?_, ?_, ?_⟩
    · rw [key _ (by decide) (by decide)]; simp [npOp, hT]
    · intro j; exact Finset.le_sup' (fun j => x i j) (Finset.mem_univ j)
    · obtain ⟨j, _, hj⟩ := Finset.exists_mem_eq_sup' (s := (Finset.univ : Finset (Fin T))) ⟨⟨0, hT⟩, Finset.mem_univ _⟩ (fun j => x i j)
      exact ⟨j, hj⟩

/-- **C39 (NaN).** A variable with a NaN is refused by all reductions. -/
theorem C39_nan_refused {S T : ℕ} (w : Weights S T) (op top : String) (v : Mat S T) (h : ¬ NoNan v) :
    (∀ j, reduceStates w op v j = none) ∧ (∀ i, reduceTurbines w op v i = none) ∧ (0 < T → reduceAll w op top v = none) := by
  refine ⟨fun j => by simp [reduceStates, h], fun i => by simp [reduceTurbines, h], ?_⟩
  intro hT
  unfold reduceAll
  rw [if_neg]
  intro hall
  exact hall ⟨0, hT⟩ (by simp [reduceStates, h])

/-- **C39 (NaN in own data).** For own data with NaN (`weinsum` with an array): the states with a NaN are left out and the weighted mean
of the others is returned, if their weights do not sum to zero. -/
theorem C39_nan_states_left_out {S T : ℕ} (w : Weights S T) (v : Mat S T) (j : Fin T)
    (h0 : ∑ i, w.at i j = 1) (h1 : ∑ i, (if Sel [v] i then w.at i j else 0) ≠ 0) :
    weinsumT w [v] j = some ((∑ i, if Sel [v] i then w.at i j * num v i j else 0) / ∑ i, if Sel [v] i then w.at i j else 0) := by
  have key : ∀ i, terms w [v] i j = some ((if Sel [v] i then w.at i j * num v i j else 0) / ∑ i, if Sel [v] i then w.at i j else 0) := by
    intro i
    unfold terms selWeight prodAt
    by_cases hi : Sel [v] i
    · rw [if_pos hi, if_pos hi]
      by_cases ha : ∀ i, Sel [v] i
      · rw [if_pos ha]
        simp only [ha, if_true] at h1 ⊢
        rw [h0]
        simp [num, mul_comm]
      · rw [if_neg ha]
        simp only [h0, if_neg h1]
        simp only [List.map_cons, List.map_nil, List.prod_cons, List.prod_nil, mul_one, Option.map_some, num]
        congr 1
        ring
    · rw [if_neg hi, if_neg hi]; simp
  unfold weinsumT
  simp only [key]
  rw [osum_some, ← Finset.sum_div]

/-- **C39 (NaN in own data, finding).** If all states have a NaN, the result is 0, not NaN. -/
theorem C39_all_nan_gives_zero {S T : ℕ} (w : Weights S T) (v : Mat S T) (j : Fin T) (h : ∀ i, v i j = none) : weinsumT w [v] j = some 0 := by
  have key : ∀ i, terms w [v] i j = some 0 := by
    intro i
    unfold terms
    rw [if_neg]
    intro hs
    exact hs v (by simp) j (h i)
  unfold weinsumT
  simp only [key]
  rw [osum_some]; simp

/-! ### Whole farm -/

lemma reduceAll_eq {S T : ℕ} (w : Weights S T) (sop top : String) (x : Fin S → Fin T → ℝ) (s : Fin T → ℝ)
    (h : ∀ j, reduceStates w sop (ofReal x) j = some (s j)) :
    reduceAll w sop top (ofReal x) = (if top = "weights" then
      (if sop = "weights" then weinsum0 w [ofReal x] else weinsum0 w [ofReal (fun _ j => s j)])
      else if top = "mean_no_weights" then some (∑ j, s j) else if top = "std" then none else npOp top s) := by
  unfold reduceAll
  rw [if_pos (fun j => by rw [h j]; simp)]
  simp only [h, Option.getD_some]
  rfl

lemma weinsum0_ofReal {S T : ℕ} (w : Weights S T) (x : Fin S → Fin T → ℝ) : weinsum0 w [ofReal x] = some (∑ j, ∑ i, x i j * w.at i j) := by
  unfold weinsum0
  simp only [terms_ofReal]
  rw [osum_some, Fintype.sum_prod_type, Finset.sum_comm]

/-- **C39 (mean farm power).** The mean farm power is the sum of the mean powers of the turbines and, with one weight per state, the
weighted mean over the states of the power of the whole farm. -/
theorem C39_mean_farm_power {S T : ℕ} (w : Weights S T) (x : Fin S → Fin T → ℝ) :
    (∃ P, calcMeanFarmPower w (ofReal x) = some P ∧ P = ∑ j, ∑ i, w.at i j * x i j ∧
      (∀ m : Fin T → ℝ, (∀ j, calcStatesMean w true (ofReal x) j = some (m j)) → P = ∑ j, m j)) ∧
    ∀ w1, w = .s w1 → calcMeanFarmPower w (ofReal x) = some (∑ i, w1 i * ∑ j, x i j) := by
  have h0 : calcMeanFarmPower w (ofReal x) = some (∑ j, ∑ i, x i j * w.at i j) := by
    unfold calcMeanFarmPower
    rw [reduceAll_eq w "weights" "sum" x _ (reduce_weights w x)]
    simp [npOp]
  refine ⟨⟨_, h0, ?_, ?_⟩, ?_⟩
  · exact Finset.sum_congr rfl (fun j _ => Finset.sum_congr rfl (fun i _ => mul_comm _ _))
  · intro m hm
    refine Finset.sum_congr rfl (fun j _ => ?_)
    have := hm j
    unfold calcStatesMean at this
    rw [if_pos rfl, reduce_weights, Option.some.injEq] at this
    exact this
  · rintro w1 rfl
    rw [h0, Finset.sum_comm]
    congr 1
    refine Finset.sum_congr rfl (fun i _ => ?_)
    rw [Finset.mul_sum]
    exact Finset.sum_congr rfl (fun j _ => mul_comm _ _)

/-- **C39 (farm sum).** The farm sum is the sum of all values. -/
theorem C39_farm_sum {S T : ℕ} (w : Weights S T) (x : Fin S → Fin T → ℝ) : calcFarmSum w (ofReal x) = some (∑ i, ∑ j, x i j) := by
  unfold calcFarmSum
  have : ∀ j, reduceStates w "sum" (ofReal x) j = some (∑ i, x i j) := by
    intro j; simp [reduceStates, noNan_ofReal, npOp, num, ofReal]
  rw [reduceAll_eq w "sum" "sum" x _ this]
  simp [npOp]
  rw [Finset.sum_comm]

/-- **C39 (farm mean, finding).** `calc_farm_mean` does not return a mean over the turbines: for a constant `c` the result is `T * c`. -/
theorem C39_farm_mean_is_sum {S T : ℕ} (w : Weights S T) (c : ℝ) (hw : ∀ j, IsMeanWeights w j) :
    calcFarmMean w (ofReal (fun _ _ => c)) = some (T * c) := by
  unfold calcFarmMean
  rw [reduceAll_eq w "weights" "weights" _ _ (reduce_weights w _)]
  rw [if_pos rfl, if_pos rfl, weinsum0_ofReal]
  congr 1
  have : ∀ j : Fin T, ∑ i, c * w.at i j = c := fun j => by rw [← Finset.mul_sum, (hw j).2, mul_one]
  simp [this]

/-- **C39 (farm mean, finding).** `calc_farm_mean` is the mean over states of the sum over turbines, and so `T` times the mean over
turbines. -/
theorem C39_farm_mean_value {S T : ℕ} (w : Weights S T) (x : Fin S → Fin T → ℝ) :
    calcFarmMean w (ofReal x) = some (∑ j, ∑ i, w.at i j * x i j) ∧ calcFarmMean w (ofReal x) = calcMeanFarmPower w (ofReal x) := by
  have h : calcFarmMean w (ofReal x) = some (∑ j, ∑ i, w.at i j * x i j) := by
    unfold calcFarmMean
    rw [reduceAll_eq w "weights" "weights" _ _ (reduce_weights w _)]
    rw [if_pos rfl, if_pos rfl, weinsum0_ofReal]
    congr 1
    exact Finset.sum_congr rfl (fun j _ => Finset.sum_congr rfl (fun i _ => mul_comm _ _))
  refine ⟨h, ?_⟩
  obtain ⟨P, hP, e, _⟩ := (C39_mean_farm_power w x).1
  rw [h, hP, e]

/-- **C39 (reduce_all, finding).** The operation "mean_no_weights" over the turbines is the sum, whatever the operation over the states. -/
theorem C39_mean_no_weights_is_sum {S T : ℕ} (w : Weights S T) (sop : String) (v : Mat S T) :
    reduceAll w sop "mean_no_weights" v = reduceAll w sop "sum" v := by
  unfold reduceAll
  by_cases h1 : ∀ j, reduceStates w sop v j ≠ none
  · rw [if_pos h1, if_pos h1]
    simp [npOp]
  · rw [if_neg h1, if_neg h1]

/-! ### Yields -/

/-- **C39 (annual yield).** The annual yield does not depend on the covered period: in every call that returns a value it is the mean
power times 8760 hours, in GWh. -/
theorem C39_annual_yield {S T : ℕ} (w : Weights S T) (x : Fin S → Fin T → ℝ) (unit : Fin T → ℝ) (series : Option (List ℤ))
    (deltaT : Option ℤ) (hours : Option ℝ) (j : Fin T) (y : ℝ) (h : calcTurbineYield w (ofReal x) unit series deltaT hours true j = some y) :
    y = (∑ i, w.at i j * x i j) * unit j * 8760 / 1000000000 := by
  have hm : calcStatesMean w true (ofReal x) j = some (∑ i, x i j * w.at i j) := reduce_weights w x j
  unfold calcTurbineYield at h
  rw [hm] at h
  cases hd : durationHours series deltaT hours true with
  | none => rw [hd] at h; cases h
  | some d =>
    rw [hd] at h
    simp only [if_true] at h
    split_ifs at h with h0
    rw [Option.some.injEq] at h
    rw [← h]
    have : ∑ i, w.at i j * x i j = ∑ i, x i j * w.at i j := Finset.sum_congr rfl (fun i _ => mul_comm _ _)
    rw [this]
    field_simp

/-- **C39 (yield).** The yield over a given number of hours is the mean power times the hours, in GWh. -/
theorem C39_yield {S T : ℕ} (w : Weights S T) (x : Fin S → Fin T → ℝ) (unit : Fin T → ℝ) (hours : ℝ) (j : Fin T) (d : Option ℤ) :
    calcTurbineYield w (ofReal x) unit none d (some hours) false j = some ((∑ i, w.at i j * x i j) * unit j * hours / 1000000000) := by
  have hm : calcStatesMean w true (ofReal x) j = some (∑ i, x i j * w.at i j) := reduce_weights w x j
  unfold calcTurbineYield
  rw [hm]
  simp only [durationHours, Bool.false_eq_true, if_false]
  have : ∑ i, w.at i j * x i j = ∑ i, x i j * w.at i j := Finset.sum_congr rfl (fun i _ => mul_comm _ _)
  rw [this]
  congr 1; ring

/-- times `t0, t0 + d, ..., t0 + (n - 1) d` -/
def regular (t0 d : ℤ) (n : ℕ) : List ℤ := (List.range n).map (fun k : ℕ => t0 + (k : ℤ) * d)

/-- **C39 (yield of a time series).** For a regular time series with step `d` of full seconds and equal weights, the yield is the sum over
the states of power times step, in GWh. -/
theorem C39_series_yield {S T : ℕ} (x : Fin S → Fin T → ℝ) (unit : Fin T → ℝ) (t0 : ℤ) (sec : ℕ) (hS : 2 ≤ S) (j : Fin T) :
    calcTurbineYield (.s (fun _ => 1 / (S : ℝ))) (ofReal x) unit (some (regular t0 (sec * 1000000000) S)) none none false j =
      some ((∑ i, x i j * ((sec : ℝ) / 3600)) * unit j / 1000000000) := by
  have hS' : (S : ℝ) ≠ 0 := by exact_mod_cast (by omega : S ≠ 0)
  have hm : calcStatesMean (.s (fun _ => 1 / (S : ℝ))) true (ofReal x) j = some (∑ i, x i j * (1 / S)) := reduce_weights _ x j
  have hd : durationHours (some (regular t0 (sec * 1000000000) S)) none none false = some ((S : ℝ) * sec / 3600) := by
    have hlen : (regular t0 (sec * 1000000000) S).length = S := by simp [regular]
    have hget : ∀ k < S, (regular t0 (sec * 1000000000) S)[k]? = some (t0 + k * (sec * 1000000000)) := by
      intro k hk; simp [regular, hk]
    have hlast : (regular t0 (sec * 1000000000) S).getLast? = some (t0 + ((S - 1 : ℕ) : ℤ) * (sec * 1000000000)) := by
      rw [List.getLast?_eq_getElem?, hlen]; exact hget _ (by omega)
    have hhead : (regular t0 (sec * 1000000000) S).head? = some t0 := by
      rw [List.head?_eq_getElem?, hget 0 (by omega)]; simp
    simp only [durationHours, Option.isSome_none, Bool.false_eq_true, if_false, seriesHours, hlast, hhead, hlen, hget (S - 2) (by omega)]
    simp only [Option.bind_some, if_neg (by omega : ¬ S < 2), Option.map_some]
    congr 2
    have e1 : ((S - 1 : ℕ) : ℤ) = S - 1 := by omega
    have e2 : ((S - 2 : ℕ) : ℤ) = S - 2 := by omega
    rw [e1, e2]
    have : (t0 + ((S : ℤ) - 1) * (sec * 1000000000) - t0 + (t0 + ((S : ℤ) - 1) * (sec * 1000000000) - (t0 + ((S : ℤ) - 2) * (sec * 1000000000)))) = (S * sec) * 1000000000 := by ring
    rw [this, Int.mul_tdiv_cancel _ (by norm_num)]
    push_cast; ring
  unfold calcTurbineYield
  rw [hm, hd]
  simp only [Bool.false_eq_true, if_false]
  congr 1
  rw [← Finset.sum_mul, ← Finset.sum_mul]
  field_simp

/-- **C39 (yield of a time series, finding).** For an irregular series the yield is not the sum of power times step: three states at 0, 1 and
4 hours, with power 0, 1, 0: the second state lasts three hours, but the yield counts 7/3 hours. -/
theorem C39_irregular_series :
    calcTurbineYield (S := 3) (T := 1) (.s (fun _ => 1 / 3)) (ofReal (fun i _ => if i = 1 then 1 else 0)) (fun _ => 1000000000)
      (some [0, 3600000000000, 14400000000000]) none none false 0 = some (7 / 3) := by
  have hm := reduce_weights (S := 3) (T := 1) (.s (fun _ => 1 / 3)) (fun i _ => if i = 1 then 1 else 0) 0
  unfold calcTurbineYield
  have hd : durationHours (some [0, 3600000000000, 14400000000000]) none none false = some 7 := by
    simp [durationHours, seriesHours]
    norm_num
  rw [hd]
  unfold calcStatesMean
  rw [if_pos rfl, hm]
  simp [Weights.at]
  norm_num

/-- **C39 (single time).** For a time series of a single state the step has to be given: else there is an error. -/
theorem C39_single_time {S T : ℕ} (w : Weights S T) (v : Mat S T) (unit : Fin T → ℝ) (t : ℤ) (h : Option ℝ) (a : Bool) (j : Fin T) :
    calcTurbineYield w v unit (some [t]) none h a j = none := by
  unfold calcTurbineYield
  have : durationHours (some [t]) none h a = none := by
    unfold durationHours seriesHours; simp
  rw [this]

/-- **C39 (farm yield).** The farm yield is the sum over the turbines; with uncertainty, P90 ≤ P75 ≤ P50. -/
theorem C39_farm_yield {T : ℕ} (y : Fin T → ℝ) (u : ℝ) (hy : ∀ j, 0 ≤ y j) (hu : 0 ≤ u) :
    ∃ p75 p90, calcFarmYield (yieldColumn false) y (some u) = some (∑ j, y j, some (p75, p90)) ∧
      calcFarmYield (yieldColumn false) y none = some (∑ j, y j, none) ∧ p90 ≤ p75 ∧ p75 ≤ ∑ j, y j := by
  refine ⟨_, _, rfl, rfl, ?_, ?_⟩
  · have := Finset.sum_nonneg (fun j (_ : j ∈ Finset.univ) => hy j)
    apply mul_le_mul_of_nonneg_left _ this
    linarith
  · have := Finset.sum_nonneg (fun j (_ : j ∈ Finset.univ) => hy j)
    nlinarith

/-- **C39 (farm yield, finding).** The ambient farm yield always ends with a KeyError. -/
theorem C39_ambient_farm_yield {T : ℕ} (y : Fin T → ℝ) (u : Option ℝ) : calcFarmYield (yieldColumn true) y u = none := by
  simp [calcFarmYield, yieldColumn]

/-- **C39 (efficiency).** Efficiencies lie in `[0, 1]` for all powers; where the ambient power is at least the power and the power is not
tiny, it is their quotient. -/
theorem C39_efficiency (P P0 : ℝ) : 0 ≤ efficiency P P0 ∧ efficiency P P0 ≤ 1 ∧
    (1e-10 ≤ P → P ≤ P0 → efficiency P P0 = P / P0) ∧ (P < 1e-10 → efficiency P P0 = 0) ∧ (1e-10 ≤ P → P0 ≤ P → efficiency P P0 = 1) := by
  unfold efficiency
  have hm : (0 : ℝ) < max P0 1e-12 := lt_of_lt_of_le (by norm_num) (le_max_right _ _)
  refine ⟨?_, ?_, ?_, ?_, ?_⟩
  · split_ifs with h
    · exact le_refl _
    · have hP : 0 ≤ P := le_trans (by norm_num) (not_lt.1 h)
      exact le_min (div_nonneg hP hm.le) zero_le_one
  · split_ifs with h
    · norm_num
    · exact min_le_right _ _
  · intro h1 h2
    rw [if_neg (not_lt.2 h1)]
    have : max P0 1e-12 = P0 := max_eq_left (le_trans (by norm_num : (1e-12 : ℝ) ≤ 1e-10) (h1.trans h2))
    rw [this]
    have hP0 : 0 < P0 := lt_of_lt_of_le (by norm_num) (h1.trans h2)
    exact min_eq_left ((div_le_one hP0).2 h2)
  · intro h; rw [if_pos h]
  · intro h1 h2
    rw [if_neg (not_lt.2 h1)]
    refine min_eq_right ?_
    rw [le_div_iff₀ hm, one_mul]
    exact max_le h2 (le_trans (by norm_num) h1)

/-- **C39 (farm efficiency).** For powers that are not negative, the farm efficiency exists and lies in `[0, 1]`; if no turbine in no state
produces more than in ambient conditions, and the mean is not tiny, it is the quotient of the mean farm powers. -/
theorem C39_farm_efficiency {S T : ℕ} (w : Weights S T) (P P0 : Fin S → Fin T → ℝ) (hw : ∀ i j, 0 ≤ w.at i j) (hP : ∀ i j, 0 ≤ P i j) :
    ∃ e, farmEfficiency w (ofReal P) (ofReal P0) = some e ∧ 0 ≤ e ∧ e ≤ 1 ∧
      ((∀ i j, P i j ≤ P0 i j) → 1e-14 ≤ ∑ j, ∑ i, w.at i j * P0 i j → e = (∑ j, ∑ i, w.at i j * P i j) / ∑ j, ∑ i, w.at i j * P0 i j) := by
  obtain ⟨p, hp, ep, _⟩ := (C39_mean_farm_power w P).1
  obtain ⟨p0, hp0, ep0, _⟩ := (C39_mean_farm_power w P0).1
  have hm : (0 : ℝ) < max p0 1e-14 := lt_of_lt_of_le (by norm_num) (le_max_right _ _)
  have hp' : 0 ≤ p := by
    rw [ep]; exact Finset.sum_nonneg (fun j _ => Finset.sum_nonneg (fun i _ => mul_nonneg (hw i j) (hP i j)))
  refine ⟨min (p / max p0 1e-14) 1, by simp [farmEfficiency, hp, hp0], le_min (div_nonneg hp' hm.le) zero_le_one, min_le_right _ _, ?_⟩
  intro hle hbig
  rw [← ep0] at hbig
  rw [max_eq_left hbig, ← ep, ← ep0]
  refine min_eq_left ((div_le_one (lt_of_lt_of_le (by norm_num) hbig)).2 ?_)
  rw [ep, ep0]
  exact Finset.sum_le_sum (fun j _ => Finset.sum_le_sum (fun i _ => mul_le_mul_of_nonneg_left (hle i j) (hw i j)))

/-- **C39 (capacity).** The capacity lies in `[0, 1]` for powers between 0 and the nominal power, and is 1 at nominal power. -/
theorem C39_capacity (P Pnom : ℝ) (h0 : 0 ≤ P) (h1 : P ≤ Pnom) (hn : 0 < Pnom) : 0 ≤ capacity P Pnom ∧ capacity P Pnom ≤ 1 ∧ capacity Pnom Pnom = 1 :=
  ⟨div_nonneg h0 hn.le, (div_le_one hn).2 h1, div_self hn.ne'⟩

/- concrete cases -/
example : IsMeanWeights (S := 2) (T := 3) (.s (fun i => if i = 0 then 1 / 4 else 3 / 4)) 1 := by
  constructor
  · intro i; simp only [Weights.at]; split_ifs <;> norm_num
  · simp [Weights.at, Fin.sum_univ_two]; norm_num
example : ∑ i : Fin 2, (Weights.s (S := 2) (T := 1) (fun _ => 3)).at i 0 ≠ 0 := by simp [Weights.at]
example : ¬ NoNan (S := 1) (T := 1) (fun _ _ => none) := by intro h; exact h 0 0 rfl
example : farmResultsReturned true ["WS", "P", "weight"] (some ["P"]) = false := by decide
/-- with two states of equal weight, one of them NaN, the mean is the value of the other one -/
example : ∑ i : Fin 2, (if Sel (S := 2) (T := 1) [fun i _ => if i = 0 then none else some 5] i then (Weights.s (S := 2) (T := 1) (fun _ => 1 / 2)).at i 0 else 0) ≠ 0 := by
  simp [Fin.sum_univ_two, Sel, Weights.at]

end


/-- **C39 (default outputs).** Without a selection of output variables the results arrive, with normalisation iff the farm variables contain the weight. -/
theorem C39_default_outputs (normalize : Bool) (farmVars : List String) :
    farmResultsReturned normalize farmVars none = true ↔ (normalize = true → "weight" ∈ farmVars) := by
  cases normalize <;> simp [farmResultsReturned]

/-- **C39 (explicit time step).** With the parameter `delta_t` given, the duration of a regular series of `S` times is the time from the first to
the last plus this step; `delta_t` is counted for the last state only, also if it differs from the step of the series. -/
theorem C39_explicit_step (t0 : ℤ) (sec d S : ℕ) (hS : 1 ≤ S) (annual : Bool) :
    durationHours (some (regular t0 (sec * 1000000000) S)) (some (d * 1000000000)) none annual = some ((((S : ℝ) - 1) * sec + d) / 3600) := by
  have hlen : (regular t0 (sec * 1000000000) S).length = S := by simp [regular]
  have hget : ∀ k < S, (regular t0 (sec * 1000000000) S)[k]? = some (t0 + k * (sec * 1000000000)) := by
    intro k hk; simp [regular, hk]
  have hlast : (regular t0 (sec * 1000000000) S).getLast? = some (t0 + ((S - 1 : ℕ) : ℤ) * (sec * 1000000000)) := by
    rw [List.getLast?_eq_getElem?, hlen]; exact hget _ (by omega)
  have hhead : (regular t0 (sec * 1000000000) S).head? = some t0 := by
    rw [List.head?_eq_getElem?, hget 0 (by omega)]; simp
  simp only [durationHours, Option.isSome_none, Bool.false_eq_true, if_false, seriesHours, hlast, hhead, Option.map_some]
  have e1 : ((S - 1 : ℕ) : ℤ) = S - 1 := by omega
  rw [e1]
  have : (t0 + ((S : ℤ) - 1) * (sec * 1000000000) - t0 + d * 1000000000) = (((S : ℤ) - 1) * sec + d) * 1000000000 := by ring
  rw [this, Int.mul_tdiv_cancel _ (by norm_num)]
  push_cast; rfl

example : (1 : ℕ) ≤ 3 := by decide

end Foxes.Props.FarmEval
