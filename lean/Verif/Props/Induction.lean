import Verif.Model.Induction
import Verif.Props.WindDir
import Mathlib.Analysis.SpecialFunctions.Trigonometric.DerivHyp
import Mathlib.Tactic.Ring
import Mathlib.Tactic.Linarith
import Mathlib.Tactic.FieldSimp
/-
C59: induction (blockage) wake models.
-/
namespace Foxes.Props.Induction
open Foxes.Induction Foxes.WakeModels Foxes.WindDir

/-! ## Rounding -/

lemma halfEven_odd (y : ℝ) : halfEven (-y) = -halfEven y := by
  unfold halfEven
  simp only
  by_cases hint : y + 1 / 2 = ⌊y + 1 / 2⌋
  · set n := ⌊y + 1 / 2⌋ with hn
    have e : -y + 1 / 2 = ((1 - n : ℤ) : ℝ) := by push_cast; linarith
    have hf : ⌊-y + 1 / 2⌋ = 1 - n := by rw [e, Int.floor_intCast]
    rw [hf]
    by_cases ho : n % 2 = 1
    · rw [if_neg (by rintro ⟨-, h⟩; omega), if_pos ⟨hint, ho⟩]; omega
    · rw [if_pos ⟨e, by omega⟩, if_neg (fun h => ho h.2)]; omega
  · set n := ⌊y + 1 / 2⌋ with hn
    have h1 : (n : ℝ) < y + 1 / 2 := lt_of_le_of_ne (Int.floor_le _) (Ne.symm hint)
    have h2 : y + 1 / 2 < n + 1 := Int.lt_floor_add_one _
    have hf : ⌊-y + 1 / 2⌋ = -n := by
      rw [Int.floor_eq_iff]; push_cast; constructor <;> linarith
    rw [hf, if_neg (by rintro ⟨h, -⟩; push_cast at h; linarith), if_neg (fun h => hint h.1)]

lemma halfEven_mono {y y' : ℝ} (h : y ≤ y') : halfEven y ≤ halfEven y' := by
  unfold halfEven
  simp only
  have hf : ⌊y + 1 / 2⌋ ≤ ⌊y' + 1 / 2⌋ := Int.floor_le_floor (by linarith)
  rcases hf.lt_or_eq with hlt | heq
  · split_ifs <;> omega
  · rw [heq]
    by_cases hc : y' + 1 / 2 = ⌊y' + 1 / 2⌋ ∧ ⌊y' + 1 / 2⌋ % 2 = 1
    · rw [if_pos hc]
      have : y + 1 / 2 = ⌊y' + 1 / 2⌋ := le_antisymm (by rw [← hc.1]; linarith) (by rw [← heq]; exact Int.floor_le _)
      rw [if_pos ⟨this, hc.2⟩]
    · rw [if_neg hc]; split_ifs <;> omega

lemma halfEven_zero : halfEven 0 = 0 := by
  have : ⌊(0 : ℝ) + 1 / 2⌋ = 0 := by rw [Int.floor_eq_iff]; norm_num
  unfold halfEven
  simp only [this]
  norm_num

lemma np12_neg (x : ℝ) : np12 (-x) = -np12 x := by
  unfold np12
  rw [neg_mul, halfEven_odd]; push_cast; ring

lemma np12_mono {x x' : ℝ} (h : x ≤ x') : np12 x ≤ np12 x' := by
  unfold np12
  have : halfEven (x * 10 ^ 12) ≤ halfEven (x' * 10 ^ 12) := halfEven_mono (by nlinarith)
  exact div_le_div_of_nonneg_right (by exact_mod_cast this) (by positivity)

lemma np12_zero : np12 0 = 0 := by unfold np12; rw [zero_mul, halfEven_zero]; simp

lemma np12_nonpos {x : ℝ} (h : x ≤ 0) : np12 x ≤ 0 := np12_zero ▸ np12_mono h
lemma np12_nonneg {x : ℝ} (h : 0 ≤ x) : 0 ≤ np12 x := by have := np12_mono h; rwa [np12_zero] at this

/-- The rounding moves a value by at most half of the last digit. -/
lemma np12_close (x : ℝ) : |np12 x - x| ≤ 5e-13 := by
  have h : |(halfEven (x * 10 ^ 12) : ℝ) - x * 10 ^ 12| ≤ 1 / 2 := by
    unfold halfEven
    simp only
    have h1 := Int.floor_le (x * 10 ^ 12 + 1 / 2)
    have h2 := Int.lt_floor_add_one (x * 10 ^ 12 + 1 / 2)
    split_ifs with hc
    · rw [abs_le]; push_cast; constructor <;> linarith [hc.1]
    · rw [abs_le]; constructor <;> linarith
  have e : np12 x - x = ((halfEven (x * 10 ^ 12) : ℝ) - x * 10 ^ 12) / 10 ^ 12 := by unfold np12; field_simp
  rw [e, abs_div, abs_of_pos (show (0 : ℝ) < 10 ^ 12 by positivity), div_le_iff₀ (by positivity)]
  exact h.trans (by norm_num)

/-- Whole metres and whole rotor radii are not changed by the rounding. -/
lemma np12_int (n : ℤ) : np12 n = n := by
  have e : (n : ℝ) * 10 ^ 12 = ((n * 10 ^ 12 : ℤ) : ℝ) := by push_cast; ring
  have hf : ⌊((n * 10 ^ 12 : ℤ) : ℝ) + 1 / 2⌋ = n * 10 ^ 12 := by rw [Int.floor_eq_iff]; constructor <;> linarith
  unfold np12 halfEven
  simp only [e, hf]
  rw [if_neg (by rintro ⟨h, -⟩; linarith)]
  push_cast
  rw [mul_div_assoc]; norm_num

/-! ## Shape functions -/

lemma sqrt_pos' (x : ℝ) : 0 < √(1 + x ^ 2) := Real.sqrt_pos.2 (by positivity)

lemma abs_lt_sqrt (x : ℝ) : |x| < √(1 + x ^ 2) := by
  rw [← Real.sqrt_sq_eq_abs]; exact Real.sqrt_lt_sqrt (sq_nonneg x) (by linarith)

lemma ratio_lt (x : ℝ) : |x / √(1 + x ^ 2)| < 1 := by
  rw [abs_div, abs_of_pos (sqrt_pos' x), div_lt_one (sqrt_pos' x)]; exact abs_lt_sqrt x

lemma ratio_mono {x y : ℝ} (h : x ≤ y) : x / √(1 + x ^ 2) ≤ y / √(1 + y ^ 2) := by
  have hx := sqrt_pos' x
  have hy := sqrt_pos' y
  have sx : √(1 + x ^ 2) ^ 2 = 1 + x ^ 2 := Real.sq_sqrt (by positivity)
  have sy : √(1 + y ^ 2) ^ 2 = 1 + y ^ 2 := Real.sq_sqrt (by positivity)
  rw [div_le_div_iff₀ hx hy]
  rcases le_total 0 x with h0 | h0
  · apply le_of_sq_le_sq₀ _ (mul_nonneg (h0.trans h) hx.le)
    rw [mul_pow, mul_pow, sx, sy]; nlinarith
  · rcases le_total 0 y with h1 | h1
    · exact (mul_nonpos_of_nonpos_of_nonneg h0 hy.le).trans (mul_nonneg h1 hx.le)
    · have : -y * √(1 + x ^ 2) ≤ -x * √(1 + y ^ 2) := by
        apply le_of_sq_le_sq₀ _ (mul_nonneg (by linarith) hy.le)
        rw [mul_pow, mul_pow, sx, sy]; nlinarith
      linarith
where
  le_of_sq_le_sq₀ {a b : ℝ} (h : a ^ 2 ≤ b ^ 2) (hb : 0 ≤ b) : a ≤ b := abs_le_of_sq_le_sq' h hb |>.2

lemma mu_bounds {x : ℝ} (h : x ≤ 0) : 0 < mu x ∧ mu x ≤ 1 := by
  unfold mu
  have h1 := (abs_lt.1 (ratio_lt x)).1
  have h2 : x / √(1 + x ^ 2) ≤ 0 := div_nonpos_of_nonpos_of_nonneg h (sqrt_pos' x).le
  constructor <;> linarith

lemma mu_mono {x y : ℝ} (h : x ≤ y) : mu x ≤ mu y := by unfold mu; linarith [ratio_mono h]

lemma radFn_bounds (rh r : ℝ) : 0 < radFn rh r ∧ radFn rh r ≤ 1 := by
  unfold radFn
  have h1 : 0 < Real.cosh (√2 * r / rh) := Real.cosh_pos _
  have h2 : 1 ≤ Real.cosh (√2 * r / rh) := Real.one_le_cosh _
  exact ⟨Real.rpow_pos_of_pos (by positivity) _, Real.rpow_le_one (by positivity) (by rw [div_le_one h1]; exact h2) (by norm_num)⟩

lemma radFn_zero (rh : ℝ) : radFn rh 0 = 1 := by simp [radFn]

lemma radFn_anti (rh r r' : ℝ) (hrh : 0 < rh) (h0 : 0 ≤ r) (h : r ≤ r') : radFn rh r' ≤ radFn rh r := by
  unfold radFn
  have hc : Real.cosh (√2 * r / rh) ≤ Real.cosh (√2 * r' / rh) := by
    rw [Real.cosh_le_cosh, abs_of_nonneg (by positivity), abs_of_nonneg (div_nonneg (mul_nonneg (Real.sqrt_nonneg _) (h0.trans h)) hrh.le)]
    gcongr
  have h1 : 0 < Real.cosh (√2 * r / rh) := Real.cosh_pos _
  exact Real.rpow_le_rpow (by have := Real.cosh_pos (√2 * r' / rh); positivity) (one_div_le_one_div_of_le h1 hc) (by norm_num)

lemma rat_q (x r : ℝ) : (x ^ 2 + (r - 1) ^ 2) * (x ^ 2 + (r + 1) ^ 2) = (x ^ 2 + r ^ 2 - 1) ^ 2 + 4 * x ^ 2 := by ring

/-- the radial shape function in closed form -/
lemma ratG_closed (x r : ℝ) (h : 0 < (x ^ 2 + r ^ 2 - 1) ^ 2 + 4 * x ^ 2) :
    ratG x r = some (√(0.5 * (1 - |x ^ 2 + r ^ 2 - 1| / √((x ^ 2 + r ^ 2 - 1) ^ 2 + 4 * x ^ 2))) * (1 / √(x ^ 2 + r ^ 2 + 1)) * (1 + x ^ 2)) := by
  have hq : 0 < √((x ^ 2 + r ^ 2 - 1) ^ 2 + 4 * x ^ 2) := Real.sqrt_pos.2 h
  unfold ratG
  simp only [rat_q]
  rw [if_neg hq.ne']
  have e : 1 - (2 * x / √((x ^ 2 + r ^ 2 - 1) ^ 2 + 4 * x ^ 2)) ^ 2 = (|x ^ 2 + r ^ 2 - 1| / √((x ^ 2 + r ^ 2 - 1) ^ 2 + 4 * x ^ 2)) ^ 2 := by
    rw [div_pow, div_pow, sq_abs, Real.sq_sqrt h.le, eq_div_iff h.ne', sub_mul, div_mul_cancel₀ _ h.ne']
    ring
  rw [e, Real.sqrt_sq (by positivity)]

lemma ratG_even (x r : ℝ) : ratG (-x) r = ratG x r := by
  unfold ratG
  simp only [neg_sq, mul_neg, neg_div]

lemma ratG_bounds (x r : ℝ) (g : ℝ) (hg : ratG x r = some g) : 0 ≤ g ∧ g ≤ 1 := by
  have h : 0 < (x ^ 2 + r ^ 2 - 1) ^ 2 + 4 * x ^ 2 := by
    by_contra hc
    have h0 : (x ^ 2 + r ^ 2 - 1) ^ 2 + 4 * x ^ 2 = 0 := le_antisymm (not_lt.1 hc) (by positivity)
    unfold ratG at hg
    simp only [rat_q, h0, Real.sqrt_zero, if_true] at hg
    exact absurd hg (by simp)
  rw [ratG_closed x r h] at hg
  have hg := Option.some.inj hg
  set q := √((x ^ 2 + r ^ 2 - 1) ^ 2 + 4 * x ^ 2) with hqd
  have hq : 0 < q := Real.sqrt_pos.2 h
  have hqq : q ^ 2 = (x ^ 2 + r ^ 2 - 1) ^ 2 + 4 * x ^ 2 := Real.sq_sqrt h.le
  have hcq : |x ^ 2 + r ^ 2 - 1| ≤ q := by
    rw [hqd, ← Real.sqrt_sq_eq_abs]; exact Real.sqrt_le_sqrt (by nlinarith)
  have hc1 : |x ^ 2 + r ^ 2 - 1| / q ≤ 1 := by rw [div_le_one hq]; exact hcq
  have hs : 0 < √(x ^ 2 + r ^ 2 + 1) := Real.sqrt_pos.2 (by positivity)
  constructor
  · rw [← hg]; positivity
  · rw [← hg]
    refine (abs_le_of_sq_le_sq' (?_ : _ ^ 2 ≤ (1 : ℝ) ^ 2) zero_le_one).2
    rw [mul_pow, mul_pow, Real.sq_sqrt (by linarith), div_pow, Real.sq_sqrt (by positivity)]
    have key : (q - |x ^ 2 + r ^ 2 - 1|) * (1 + x ^ 2) ^ 2 ≤ 2 * q * (x ^ 2 + r ^ 2 + 1) := by
      have hqs : q ≤ x ^ 2 + r ^ 2 + 1 := by
        rw [hqd, ← Real.sqrt_sq (show 0 ≤ x ^ 2 + r ^ 2 + 1 by positivity)]
        exact Real.sqrt_le_sqrt (by nlinarith [sq_nonneg r])
      set s := x ^ 2 + r ^ 2 + 1 with hsd
      set X := 1 + x ^ 2 with hX
      have hXs : X ≤ s := by rw [hX, hsd]; nlinarith [sq_nonneg r]
      have hX1 : 1 ≤ X := by rw [hX]; nlinarith [sq_nonneg x]
      have e1 : x ^ 2 + r ^ 2 - 1 = s - 2 := by rw [hsd]; ring
      rw [e1]
      rcases le_total 2 s with h2 | h2
      · rw [abs_of_nonneg (by linarith)]
        rcases le_total (X ^ 2) (2 * s) with h3 | h3
        · nlinarith [mul_le_mul_of_nonneg_left h3 hq.le, mul_nonneg (sq_nonneg X) (by linarith : 0 ≤ s - 2)]
        · have : q * (X ^ 2 - 2 * s) ≤ s * (X ^ 2 - 2 * s) := mul_le_mul_of_nonneg_right hqs (by linarith)
          have : X ^ 2 ≤ s ^ 2 := by nlinarith
          nlinarith
      · rw [abs_of_nonpos (by linarith)]
        have h3 : X ^ 2 ≤ 2 * s := by nlinarith
        nlinarith [mul_le_mul_of_nonneg_left h3 hq.le, mul_nonneg (sq_nonneg X) (by linarith : 0 ≤ 2 - s)]
    have e : 0.5 * (1 - |x ^ 2 + r ^ 2 - 1| / q) * (1 ^ 2 / (x ^ 2 + r ^ 2 + 1)) * (1 + x ^ 2) ^ 2 =
        (q - |x ^ 2 + r ^ 2 - 1|) * (1 + x ^ 2) ^ 2 / (2 * q * (x ^ 2 + r ^ 2 + 1)) := by
      field_simp; norm_num; ring
    rw [e, div_le_iff₀ (by positivity)]
    linarith

/-! ## Theorems -/

/-- A turbine without thrust has no influence. -/
theorem C59_no_thrust (a : ℝ → ℝ) (a0 : ℝ → ℝ → ℝ) (rh : ℝ → ℝ) (pre : Bool) (D ct x r ws y z : ℝ) (h : ct ≤ 1e-8) :
    rathmann a pre D ct x r = none ∧ selfSim a0 rh pre D ct x r = none ∧ vortexSheet a pre D ct x r = none ∧
    rankine a ws D ct x y z = (0, 0) := by
  have h' : ¬ (1e-8 : ℝ) < ct := not_lt.2 h
  refine ⟨?_, ?_, ?_, ?_⟩ <;> simp [rathmann, selfSim, twoSided, vortexSheet, rankine, h']

lemma twoSided_up (pre : Bool) (ct xR rR : ℝ) (f : ℝ → ℝ → Option ℝ) (hct : 1e-8 < ct) (hx : xR ≤ 0) :
    twoSided pre ct xR rR f = some ((f xR rR).map fun b => -b) := by
  rw [twoSided, if_pos ⟨hct, hx⟩]

lemma twoSided_down (ct xR rR : ℝ) (f : ℝ → ℝ → Option ℝ) (hct : 1e-8 < ct) (hx : 0 < xR) (hr : 1 < rR) :
    twoSided false ct xR rR f = some (f (-xR) rR) := by
  rw [twoSided, if_neg (fun h => absurd h.2 (not_le.2 hx)), if_pos ⟨rfl, hct, hx, hr⟩]

/-- With `pre_rotor_only` nothing changes downstream of the rotor; otherwise nothing changes directly behind it. -/
theorem C59_behind (a : ℝ → ℝ) (a0 : ℝ → ℝ → ℝ) (rh : ℝ → ℝ) (pre : Bool) (D ct x r : ℝ) (hD : 0 < D) (hx : 1e-6 * D ≤ x) (hx2 : 1e-6 ≤ x)
    (h : pre = true ∨ r ≤ D / 2) :
    rathmann a pre D ct x r = none ∧ selfSim a0 rh pre D ct x r = none ∧ vortexSheet a pre D ct x r = none := by
  have p1 : 0 < np12 (x / (0.5 * D)) := by
    have h1 : 1e-6 ≤ x / (0.5 * D) := by rw [le_div_iff₀ (by positivity)]; nlinarith
    have := (abs_le.1 (np12_close (x / (0.5 * D)))).1
    norm_num at this h1 ⊢
    linarith
  have p2 : 0 < np12 x := by
    have := (abs_le.1 (np12_close x)).1
    norm_num at this hx2 ⊢
    linarith
  have hr : pre = true ∨ ¬ 1 < r / (0.5 * D) := by
    rcases h with h | h
    · exact Or.inl h
    · right; rw [not_lt, div_le_one (by positivity)]; linarith
  refine ⟨?_, ?_, ?_⟩
  · unfold rathmann twoSided
    simp only
    rw [if_neg (fun h => absurd h.2 (not_le.2 p1)), if_neg]
    rintro ⟨h1, -, -, h4⟩
    rcases hr with h | h
    · rw [h1] at h; exact absurd h (by decide)
    · exact h h4
  · unfold selfSim twoSided
    simp only
    rw [if_neg (fun h => absurd h.2 (not_le.2 p1)), if_neg]
    rintro ⟨h1, -, -, h4⟩
    rcases hr with h | h
    · rw [h1] at h; exact absurd h (by decide)
    · exact h h4
  · unfold vortexSheet
    simp only
    rw [if_neg (fun h => absurd h.2 (not_le.2 p2)), if_neg]
    rintro ⟨h1, -, -, h4⟩
    rcases h with h | h
    · rw [h1] at h; exact absurd h (by decide)
    · exact absurd h4 (not_lt.2 h)

/-- Beside the rotor, the speed-up downstream is the mirror image of the slow-down upstream. -/
theorem C59_mirror (a : ℝ → ℝ) (a0 : ℝ → ℝ → ℝ) (rh : ℝ → ℝ) (D ct x r : ℝ) (hD : 0 < D) (hct : 1e-8 < ct) (hx : 1e-6 * D ≤ x) (hx2 : 1e-6 ≤ x)
    (hr : D / 2 < r) :
    rathmann a false D ct (-x) r = (rathmann a false D ct x r).map (Option.map fun v => -v) ∧
    selfSim a0 rh false D ct (-x) r = (selfSim a0 rh false D ct x r).map (Option.map fun v => -v) ∧
    vortexSheet a false D ct (-x) r = (vortexSheet a false D ct x r).map (fun v => -v) := by
  have p1 : 0 < np12 (x / (0.5 * D)) := by
    have h1 : 1e-6 ≤ x / (0.5 * D) := by rw [le_div_iff₀ (by positivity)]; nlinarith
    have := (abs_le.1 (np12_close (x / (0.5 * D)))).1
    norm_num at this h1 ⊢
    linarith
  have p2 : 0 < np12 x := by
    have := (abs_le.1 (np12_close x)).1
    norm_num at this hx2 ⊢
    linarith
  have hr1 : 1 < r / (0.5 * D) := by rw [lt_div_iff₀ (by positivity)]; linarith
  refine ⟨?_, ?_, ?_⟩
  · unfold rathmann
    simp only [neg_div, np12_neg]
    rw [twoSided_up _ _ _ _ _ hct (by linarith), twoSided_down _ _ _ _ hct p1 hr1]
    rfl
  · unfold selfSim
    simp only [neg_div, np12_neg]
    rw [twoSided_up _ _ _ _ _ hct (by linarith), twoSided_down _ _ _ _ hct p1 hr1]
    rfl
  · unfold vortexSheet
    simp only [np12_neg, neg_sq]
    rw [if_pos ⟨hct, by linarith⟩, if_neg (fun h => absurd h.2 (not_le.2 p2)), if_pos ⟨trivial, hct, p2, hr⟩]
    rfl

/-! ### Vortex sheet -/

lemma sheet_factor (xi : ℝ) (h : 0 ≤ xi) : 0 < 1 + -xi / √(1 + xi ^ 2) ∧ 1 + -xi / √(1 + xi ^ 2) ≤ 1 := by
  have := mu_bounds (x := -xi) (by linarith)
  unfold mu at this
  rwa [neg_sq] at this

/-- Vortex sheet: the wind upstream is slowed down by a fraction between 0 and the induction factor, and the fraction is smaller the larger the
distance to the hub; at the hub it is the induction factor. -/
theorem C59_vortex_upstream (a : ℝ → ℝ) (pre : Bool) (D ct : ℝ) (hD : 0 < D) (hct : 1e-8 < ct) (ha : 0 < a ct) :
    vortexSheet a pre D ct 0 0 = some (-a ct) ∧
    (∀ x r, x ≤ 0 → ∃ v, vortexSheet a pre D ct x r = some v ∧ -a ct ≤ v ∧ v < 0) ∧
    ∀ x r x' r', x ≤ 0 → x' ≤ x → 0 ≤ r → r ≤ r' →
      ∃ v v', vortexSheet a pre D ct x r = some v ∧ vortexSheet a pre D ct x' r' = some v' ∧ v ≤ v' := by
  have up : ∀ x r, x ≤ 0 → vortexSheet a pre D ct x r =
      some (-(a ct * (1 + -(√(r ^ 2 + np12 x ^ 2) / (D / 2)) / √(1 + (√(r ^ 2 + np12 x ^ 2) / (D / 2)) ^ 2)))) := by
    intro x r hx
    unfold vortexSheet
    simp only
    rw [if_pos ⟨hct, np12_nonpos hx⟩]
  refine ⟨?_, ?_, ?_⟩
  · rw [up 0 0 (le_refl _)]; simp [np12_zero]
  · intro x r hx
    obtain ⟨h1, h2⟩ := sheet_factor (√(r ^ 2 + np12 x ^ 2) / (D / 2)) (by positivity)
    refine ⟨_, up x r hx, ?_, ?_⟩
    · nlinarith
    · have := mul_pos ha h1; linarith
  · intro x r x' r' hx hxx hr hrr
    refine ⟨_, _, up x r hx, up x' r' (hxx.trans hx), ?_⟩
    have hn : np12 x ^ 2 ≤ np12 x' ^ 2 := by
      have h1 := np12_mono hxx
      have h2 := np12_nonpos hx
      nlinarith
    have hs : √(r ^ 2 + np12 x ^ 2) / (D / 2) ≤ √(r' ^ 2 + np12 x' ^ 2) / (D / 2) := by
      gcongr
    have hm := mu_mono (neg_le_neg hs)
    unfold mu at hm
    rw [neg_sq, neg_sq] at hm
    have := mul_le_mul_of_nonneg_left hm ha.le
    linarith

/-- Finding: across the rotor plane, beside the rotor, the delta of the vortex sheet jumps: it is the same amount negative on the upstream side
and positive on the downstream side. -/
theorem C59_vortex_jump (a : ℝ → ℝ) (D ct r : ℝ) (hD : 0 < D) (hct : 1e-8 < ct) (ha : 0 < a ct) (hr : D / 2 < r) :
    ∃ b > 0, vortexSheet a false D ct 0 r = some (-b) ∧
      ∀ x, 1e-6 ≤ x → x ≤ r → ∃ v, vortexSheet a false D ct x r = some v ∧ b / 3 ≤ v := by
  set xi := r / (D / 2) with hxi
  have hxi1 : 1 < xi := by rw [hxi, lt_div_iff₀ (by positivity)]; linarith
  have hr0 : 0 < r := by linarith
  obtain ⟨f1, f2⟩ := sheet_factor xi (by linarith)
  refine ⟨a ct * (1 + -xi / √(1 + xi ^ 2)), mul_pos ha f1, ?_, ?_⟩
  · unfold vortexSheet
    simp only [np12_zero]
    rw [if_pos ⟨hct, le_refl _⟩]
    have : √(r ^ 2 + 0 ^ 2) = r := by rw [show r ^ 2 + (0 : ℝ) ^ 2 = r ^ 2 by ring]; exact Real.sqrt_sq hr0.le
    rw [this]
  · intro x hx1 hx2
    have p2 : 0 < np12 x := by
      have := (abs_le.1 (np12_close x)).1
      norm_num at this hx1 ⊢
      linarith
    have p3 : np12 x ≤ r * (1 + 1e-6) := by
      have := (abs_le.1 (np12_close x)).2
      norm_num at this hx1 ⊢
      nlinarith
    unfold vortexSheet
    simp only
    rw [if_neg (fun h => absurd h.2 (not_le.2 p2)), if_pos ⟨trivial, hct, p2, hr⟩]
    refine ⟨_, rfl, ?_⟩
    rw [mul_div_assoc]
    refine mul_le_mul_of_nonneg_left ?_ ha.le
    set et := √(r ^ 2 + np12 x ^ 2) / (D / 2) with het
    have hsq : et ^ 2 ≤ 2.1 * xi ^ 2 := by
      rw [het, hxi, div_pow _ (D / 2), div_pow r (D / 2), Real.sq_sqrt (by positivity), ← mul_div_assoc]
      gcongr
      have : np12 x ^ 2 ≤ (r * (1 + 1e-6)) ^ 2 := by gcongr
      norm_num at this ⊢
      nlinarith [sq_nonneg r]
    have het0 : 0 ≤ et := by rw [het]; positivity
    -- 1 - t/√(1+t²) = 1/(√(1+t²)(√(1+t²)+t))
    have form : ∀ t : ℝ, 1 + -t / √(1 + t ^ 2) = 1 / (√(1 + t ^ 2) * (√(1 + t ^ 2) + t)) ∨ t < 0 := by
      intro t
      rcases lt_or_ge t 0 with h | h
      · exact Or.inr h
      · left
        have hs := sqrt_pos' t
        have hss : √(1 + t ^ 2) ^ 2 = 1 + t ^ 2 := Real.sq_sqrt (by positivity)
        have h2 : 0 < √(1 + t ^ 2) + t := by linarith
        rw [eq_div_iff (by positivity)]
        field_simp
        linarith
    rcases form xi with fx | h
    · rcases form et with fe | h
      · rw [fx, fe]
        have sx : √(1 + xi ^ 2) ^ 2 = 1 + xi ^ 2 := Real.sq_sqrt (by positivity)
        have se : √(1 + et ^ 2) ^ 2 = 1 + et ^ 2 := Real.sq_sqrt (by positivity)
        have px := sqrt_pos' xi
        have pe := sqrt_pos' et
        have h1 : √(1 + et ^ 2) ≤ 1.45 * √(1 + xi ^ 2) := by
          refine (abs_le_of_sq_le_sq' ?_ (by positivity)).2
          rw [mul_pow, se, sx]; nlinarith
        have h2 : et ≤ 1.45 * xi := by
          refine (abs_le_of_sq_le_sq' ?_ (by linarith)).2
          rw [mul_pow]; nlinarith
        have h3 : √(1 + et ^ 2) * (√(1 + et ^ 2) + et) ≤ 3 * (√(1 + xi ^ 2) * (√(1 + xi ^ 2) + xi)) := by
          have := mul_le_mul h1 (add_le_add h1 h2) (by positivity) (by positivity)
          nlinarith [mul_pos px (add_pos px (by linarith : 0 < xi))]
        rw [div_div, one_div_le_one_div (by have := add_pos px (by linarith : 0 < xi); positivity) (by positivity)]
        linarith
      · linarith
    · linarith

/-! ### Rathmann -/

/-- Rathmann: the wind upstream is slowed down by a fraction between 0 and the induction factor. -/
theorem C59_rathmann_upstream (a : ℝ → ℝ) (pre : Bool) (D ct x r : ℝ) (hct : 1e-8 < ct) (ha : 0 ≤ a ct) (hD : 0 < D) (hx : x ≤ 0) (v : ℝ)
    (hv : rathmann a pre D ct x r = some (some v)) : -a ct ≤ v ∧ v ≤ 0 := by
  have hx0 : np12 (x / (0.5 * D)) ≤ 0 := np12_nonpos (div_nonpos_of_nonpos_of_nonneg hx (by positivity))
  unfold rathmann at hv
  simp only at hv
  rw [twoSided_up _ _ _ _ _ hct hx0] at hv
  cases hg : ratG (np12 (x / (0.5 * D))) (r / (0.5 * D)) with
  | none => rw [hg] at hv; simp at hv
  | some g =>
    rw [hg] at hv
    simp only [Option.map_some] at hv
    have hv := Option.some.inj (Option.some.inj hv)
    obtain ⟨g0, g1⟩ := ratG_bounds _ _ _ hg
    obtain ⟨m0, m1⟩ := mu_bounds hx0
    have h1 : mu (np12 (x / (0.5 * D))) * g ≤ 1 := by nlinarith
    have h2 : 0 ≤ mu (np12 (x / (0.5 * D))) * g := mul_nonneg m0.le g0
    rw [← hv]
    constructor <;> nlinarith

/-- Upstream on the axis, in closed form: the delta is `-a * mu(x) * min(|x|, 1)`, `x` in rotor radii. -/
theorem C59_rathmann_axis (a : ℝ → ℝ) (pre : Bool) (D ct x : ℝ) (hct : 1e-8 < ct) (hD : 0 < D) (hx : x ≤ 0) :
    rathmann a pre D ct x 0 = some (some (-(a ct * mu (np12 (x / (0.5 * D))) * min |np12 (x / (0.5 * D))| 1))) := by
  have hx0 : np12 (x / (0.5 * D)) ≤ 0 := np12_nonpos (div_nonpos_of_nonpos_of_nonneg hx (by positivity))
  unfold rathmann
  simp only
  rw [twoSided_up _ _ _ _ _ hct hx0, zero_div]
  set t := np12 (x / (0.5 * D)) with ht
  have hpos : 0 < (t ^ 2 + 0 ^ 2 - 1) ^ 2 + 4 * t ^ 2 := by nlinarith [sq_nonneg (t ^ 2 + 1), sq_nonneg t]
  rw [ratG_closed t 0 hpos]
  have e1 : (t ^ 2 + 0 ^ 2 - 1) ^ 2 + 4 * t ^ 2 = (t ^ 2 + 1) ^ 2 := by ring
  have e2 : t ^ 2 + 0 ^ 2 + 1 = t ^ 2 + 1 := by ring
  have e3 : t ^ 2 + 0 ^ 2 - 1 = t ^ 2 - 1 := by ring
  rw [e1, e2, e3, Real.sqrt_sq (by positivity)]
  have hs : 0 < √(t ^ 2 + 1) := Real.sqrt_pos.2 (by positivity)
  have hss : √(t ^ 2 + 1) ^ 2 = t ^ 2 + 1 := Real.sq_sqrt (by positivity)
  have key : √(0.5 * (1 - |t ^ 2 - 1| / (t ^ 2 + 1))) = min |t| 1 / √(t ^ 2 + 1) := by
    rw [← Real.sqrt_sq (show 0 ≤ min |t| 1 / √(t ^ 2 + 1) by positivity), div_pow, hss]
    congr 1
    rcases le_total |t| 1 with h | h
    · have : t ^ 2 ≤ 1 := by rw [← sq_abs]; nlinarith [abs_nonneg t]
      rw [min_eq_left h, abs_of_nonpos (by linarith), sq_abs]
      field_simp; norm_num; ring
    · have : 1 ≤ t ^ 2 := by rw [← sq_abs]; nlinarith [abs_nonneg t]
      rw [min_eq_right h, abs_of_nonneg (by linarith)]
      field_simp; norm_num
  rw [key]
  simp only [Option.map_some, Option.some.injEq, neg_inj]
  congr 1
  have e4 : min |t| 1 / √(t ^ 2 + 1) * (1 / √(t ^ 2 + 1)) * (1 + t ^ 2) = min |t| 1 * (1 + t ^ 2) / √(t ^ 2 + 1) ^ 2 := by field_simp
  rw [e4, hss, add_comm (1 : ℝ), mul_div_assoc, div_self (by positivity), mul_one]

/-- Finding: on the axis the blockage of the Rathmann model vanishes at the rotor, where it should be largest: at the hub the delta is 0, although one
radius upstream it is `-a * (1 - 1/√2)`. -/
theorem C59_rathmann_hub (a : ℝ → ℝ) (pre : Bool) (D ct : ℝ) (hct : 1e-8 < ct) (hD : 0 < D) :
    rathmann a pre D ct 0 0 = some (some 0) ∧ rathmann a pre D ct (-(0.5 * D)) 0 = some (some (-(a ct * (1 - 1 / √2)))) := by
  constructor
  · rw [C59_rathmann_axis a pre D ct 0 hct hD (le_refl _)]
    simp [np12_zero]
  · rw [C59_rathmann_axis a pre D ct _ hct hD (by linarith [show 0 < 0.5 * D by positivity])]
    have e : -(0.5 * D) / (0.5 * D) = ((-1 : ℤ) : ℝ) := by
      have : (0.5 * D) ≠ 0 := by positivity
      push_cast; field_simp
    rw [e, np12_int]
    push_cast
    have e2 : (1 : ℝ) + (-1) ^ 2 = 2 := by norm_num
    simp only [mu, e2, abs_neg, abs_one, min_self, mul_one]
    congr 3
    ring

/-- the radial shape function with the correct sign of `cos(2 alpha)`, which is negative within the sphere around the hub through the rotor tips -/
noncomputable def refG (x r : ℝ) : ℝ :=
  √((1 - (x ^ 2 + r ^ 2 - 1) / √((x ^ 2 + r ^ 2 - 1) ^ 2 + 4 * x ^ 2)) / 2) * (1 / √(x ^ 2 + r ^ 2 + 1)) * (1 + x ^ 2)

/-- The radial shape is the one of the vortex cylinder model outside of the sphere around the hub through the rotor tips; what is missing: inside the
sphere the code has the wrong branch and a smaller value. -/
theorem C59_rathmann_shape_partial (x r : ℝ) (hx : x ≠ 0 ∨ x ^ 2 + r ^ 2 ≠ 1) :
    (1 ≤ x ^ 2 + r ^ 2 → ratG x r = some (refG x r)) ∧
    (x ^ 2 + r ^ 2 < 1 → ∃ g, ratG x r = some g ∧ g < refG x r) := by
  have hpos : 0 < (x ^ 2 + r ^ 2 - 1) ^ 2 + 4 * x ^ 2 := by
    rcases hx with h | h
    · have := sq_pos_of_ne_zero h
      nlinarith [sq_nonneg (x ^ 2 + r ^ 2 - 1)]
    · have := sq_pos_of_ne_zero (sub_ne_zero.2 h)
      nlinarith [sq_nonneg x]
  have half : ∀ t : ℝ, 0.5 * t = t / 2 := fun t => by norm_num; ring
  have hq : 0 < √((x ^ 2 + r ^ 2 - 1) ^ 2 + 4 * x ^ 2) := Real.sqrt_pos.2 hpos
  constructor
  · intro h
    rw [ratG_closed x r hpos, abs_of_nonneg (by linarith), refG, half]
  · intro h
    refine ⟨_, ratG_closed x r hpos, ?_⟩
    rw [abs_of_neg (by linarith), refG, half]
    have hs : 0 < √(x ^ 2 + r ^ 2 + 1) := Real.sqrt_pos.2 (by positivity)
    refine mul_lt_mul_of_pos_right (mul_lt_mul_of_pos_right ?_ (by positivity)) (by positivity)
    have hneg : (x ^ 2 + r ^ 2 - 1) / √((x ^ 2 + r ^ 2 - 1) ^ 2 + 4 * x ^ 2) < 0 := div_neg_of_neg_of_pos (by linarith) hq
    refine (Real.sqrt_lt_sqrt_iff_of_pos (by linarith)).2 ?_
    rw [neg_div]
    linarith

/-- Finding: at the rotor tips (`r = D/2` in the rotor plane) the delta is NaN. -/
theorem C59_rathmann_tip_nan (a : ℝ → ℝ) (pre : Bool) (D ct : ℝ) (hct : 1e-8 < ct) (hD : 0 < D) :
    rathmann a pre D ct 0 (D / 2) = some none := by
  unfold rathmann
  simp only [zero_div, np12_zero]
  rw [twoSided_up _ _ _ _ _ hct (le_refl _)]
  have : D / 2 / (0.5 * D) = 1 := by rw [div_eq_one_iff_eq (by positivity)]; norm_num; ring
  rw [this]
  simp [ratG]

/-- Beside the rotor the Rathmann model is continuous across the rotor plane: the delta in the plane is zero. -/
theorem C59_rathmann_plane (a : ℝ → ℝ) (pre : Bool) (D ct r : ℝ) (hct : 1e-8 < ct) (hD : 0 < D) (hr : D / 2 < r) :
    rathmann a pre D ct 0 r = some (some 0) := by
  unfold rathmann
  simp only [zero_div, np12_zero]
  rw [twoSided_up _ _ _ _ _ hct (le_refl _)]
  have h1 : 1 < r / (0.5 * D) := by rw [lt_div_iff₀ (by positivity)]; linarith
  set t := r / (0.5 * D) with ht
  have h2 : 0 < t ^ 2 - 1 := by nlinarith
  have hpos : 0 < ((0 : ℝ) ^ 2 + t ^ 2 - 1) ^ 2 + 4 * 0 ^ 2 := by
    rw [show ((0 : ℝ) ^ 2 + t ^ 2 - 1) ^ 2 + 4 * 0 ^ 2 = (t ^ 2 - 1) ^ 2 by ring]; positivity
  rw [ratG_closed 0 t hpos]
  rw [show ((0 : ℝ) ^ 2 + t ^ 2 - 1) ^ 2 + 4 * 0 ^ 2 = (t ^ 2 - 1) ^ 2 by ring, show (0 : ℝ) ^ 2 + t ^ 2 - 1 = t ^ 2 - 1 by ring,
    abs_of_pos h2, Real.sqrt_sq h2.le, div_self h2.ne']
  simp

/-! ### Self-similar models -/

/-- Self-similar models: the wind upstream is slowed down by a fraction between 0 and the induction factor, which gets smaller with the radial distance. -/
theorem C59_selfsim_upstream (a0 : ℝ → ℝ → ℝ) (rh : ℝ → ℝ) (pre : Bool) (D ct x r : ℝ) (hct : 1e-8 < ct) (hD : 0 < D) (hx : x ≤ 0)
    (ha : ∀ t ≤ 0, 0 ≤ a0 ct t) :
    ∃ v, selfSim a0 rh pre D ct x r = some (some v) ∧ -(a0 ct (np12 (x / (0.5 * D)))) ≤ v ∧ v ≤ 0 ∧
      ((∀ t ≤ 0, 0 < rh t) → 0 ≤ r → ∀ r' ≥ r, ∃ v', selfSim a0 rh pre D ct x r' = some (some v') ∧ v ≤ v') := by
  have hx0 : np12 (x / (0.5 * D)) ≤ 0 := np12_nonpos (div_nonpos_of_nonpos_of_nonneg hx (by positivity))
  have up : ∀ r, selfSim a0 rh pre D ct x r = some (some (-(a0 ct (np12 (x / (0.5 * D))) * mu (np12 (x / (0.5 * D))) *
      radFn (rh (np12 (x / (0.5 * D)))) (r / (0.5 * D))))) := by
    intro r
    unfold selfSim
    simp only
    rw [twoSided_up _ _ _ _ _ hct hx0]
    rfl
  set t := np12 (x / (0.5 * D)) with ht
  obtain ⟨m0, m1⟩ := mu_bounds hx0
  obtain ⟨r0, r1⟩ := radFn_bounds (rh t) (r / (0.5 * D))
  have h0 := ha t hx0
  have h1 : mu t * radFn (rh t) (r / (0.5 * D)) ≤ 1 := by nlinarith
  have h2 : 0 < mu t * radFn (rh t) (r / (0.5 * D)) := mul_pos m0 r0
  refine ⟨_, up r, by nlinarith, by nlinarith, ?_⟩
  intro hrh hr r' hr'
  refine ⟨_, up r', ?_⟩
  have := radFn_anti (rh t) (r / (0.5 * D)) (r' / (0.5 * D)) (hrh t hx0) (by positivity) (by gcongr)
  have := mul_le_mul_of_nonneg_left this (mul_nonneg h0 m0.le)
  linarith

/-- The model `SelfSimilar`: on the axis, the slow-down grows towards the rotor and reaches the induction factor at the hub. -/
theorem C59_selfsimilar_axis (a : ℝ → ℝ) (gamma : ℝ) (pre : Bool) (D ct x x' : ℝ) (hct : 1e-8 < ct) (hD : 0 < D) (hx : x ≤ x') (hx' : x' ≤ 0)
    (ha : 0 ≤ a (gamma * ct)) :
    selfSimilar a gamma pre D ct 0 0 = some (some (-a (gamma * ct))) ∧
    ∃ v v', selfSimilar a gamma pre D ct x 0 = some (some v) ∧ selfSimilar a gamma pre D ct x' 0 = some (some v') ∧ v' ≤ v := by
  have up : ∀ x ≤ 0, selfSimilar a gamma pre D ct x 0 = some (some (-(a (gamma * ct) * mu (np12 (x / (0.5 * D)))))) := by
    intro x hx
    unfold selfSimilar selfSim
    simp only
    rw [twoSided_up _ _ _ _ _ hct (np12_nonpos (div_nonpos_of_nonpos_of_nonneg hx (by positivity))), zero_div]
    simp only [radFn_zero, mul_one, Option.map_some]
  constructor
  · rw [up 0 (le_refl _)]; simp [np12_zero, mu]
  · refine ⟨_, _, up x (hx.trans hx'), up x' hx', ?_⟩
    have hm : mu (np12 (x / (0.5 * D))) ≤ mu (np12 (x' / (0.5 * D))) := mu_mono (np12_mono (by gcongr))
    have := mul_le_mul_of_nonneg_left hm ha
    linarith

/-- The half radii of both models are positive upstream, so `C59_selfsim_upstream` applies with its radial part. -/
lemma half_radius_pos (t : ℝ) (ht : t ≤ 0) : 0 < √(0.587 * (1.32 + t ^ 2)) ∧ 0 < -0.672 * t + 0.4897 := by
  constructor
  · apply Real.sqrt_pos.2; positivity
  · nlinarith

lemma near_bounds (ct : ℝ) (h0 : 0 ≤ ct) (h1 : ct ≤ 1) : 1.05 ≤ nearGamma ct ∧ nearGamma ct ≤ 1.34 := by
  unfold nearGamma
  constructor
  · nlinarith [mul_nonneg (sub_nonneg.2 h1) (sq_nonneg (ct - 0.449)), mul_nonneg h0 (sq_nonneg (ct - 0.449)), sq_nonneg (ct - 0.449),
      sq_nonneg (ct - 1)]
  · nlinarith [mul_nonneg h0 (sub_nonneg.2 h1), mul_nonneg h0 (sq_nonneg (ct - 0.95)), mul_nonneg h0 h0]

lemma far_bounds (ct : ℝ) : 1.05 ≤ farGamma ct ∧ farGamma ct ≤ 1.34 := by
  unfold farGamma
  have h1 := Real.sin_le_one ((ct - 0.4911) / 0.1577)
  have h2 := Real.neg_one_le_sin ((ct - 0.4911) / 0.1577)
  constructor <;> norm_num at * <;> linarith

lemma mu_gap : mu (-6) < mu (-1) := by
  unfold mu
  have h1 : √(1 + (-1 : ℝ) ^ 2) = √2 := by norm_num
  have h6 : √(1 + (-6 : ℝ) ^ 2) = √37 := by norm_num
  rw [h1, h6]
  have a : (6 : ℝ) / √37 > 0.9 := by
    rw [gt_iff_lt, lt_div_iff₀ (Real.sqrt_pos.2 (by norm_num))]
    have : √37 < 6.1 := by rw [Real.sqrt_lt' (by norm_num)]; norm_num
    linarith
  have b : (1 : ℝ) / √2 < 0.8 := by
    rw [div_lt_iff₀ (Real.sqrt_pos.2 (by norm_num))]
    have : 1.4 < √2 := by rw [Real.lt_sqrt (by norm_num)]; norm_num
    linarith
  have e1 : (-1 : ℝ) / √2 = -(1 / √2) := by ring
  have e2 : (-6 : ℝ) / √37 = -(6 / √37) := by ring
  rw [e1, e2]; linarith

/-- The correction factor of `SelfSimilar2020` is the near wake factor within one radius, the far one beyond six radii, and between these two in between;
so it raises the thrust by 5 to 34 percent, for every thrust coefficient up to 1. -/
theorem C59_gamma2020 (ct x : ℝ) (h0 : 0 ≤ ct) (h1 : ct ≤ 1) :
    1.05 ≤ gamma2020 ct x ∧ gamma2020 ct x ≤ 1.34 ∧ (|x| ≤ 1 → gamma2020 ct x = nearGamma ct) ∧ (6 ≤ |x| → gamma2020 ct x = farGamma ct) := by
  have hgap := mu_gap
  have hne : mu (-6) - mu (-1) ≠ 0 := by linarith
  set xn := min (max (-1 * |x|) (-6)) (-1) with hxn
  have hxn1 : xn ≤ -1 := min_le_right _ _
  have hxn6 : -6 ≤ xn := le_min (le_max_right _ _) (by norm_num)
  have e : gamma2020 ct x = (mu xn - mu (-1)) / (mu (-6) - mu (-1)) * farGamma ct + (1 - (mu xn - mu (-1)) / (mu (-6) - mu (-1))) * nearGamma ct := rfl
  have hc0 : 0 ≤ (mu xn - mu (-1)) / (mu (-6) - mu (-1)) := div_nonneg_of_nonpos (by linarith [mu_mono hxn1]) (by linarith)
  have hc1 : (mu xn - mu (-1)) / (mu (-6) - mu (-1)) ≤ 1 := by
    rw [div_le_one_of_neg (by linarith)]; linarith [mu_mono hxn6]
  obtain ⟨n0, n1⟩ := near_bounds ct h0 h1
  obtain ⟨f0, f1⟩ := far_bounds ct
  refine ⟨?_, ?_, ?_, ?_⟩
  · rw [e]; nlinarith
  · rw [e]; nlinarith
  · intro h
    have : xn = -1 := by
      rw [hxn, min_eq_right]; exact le_max_of_le_left (by linarith)
    rw [e, this, sub_self, zero_div]; ring
  · intro h
    have : xn = -6 := by
      rw [hxn, max_eq_right (by linarith), min_eq_left (by norm_num)]
    rw [e, this, div_self hne]; ring

/-! ### Rankine half body -/

lemma shape_closed (m ws x r : ℝ) (hρ : 0 < √(r ^ 2 + x ^ 2)) :
    rankShape m ws x r = x / √(r ^ 2 + x ^ 2) - 2 / (m + 1e-15) * ws * r ^ 2 := by
  have hn : ‖(⟨x, r⟩ : ℂ)‖ = √(r ^ 2 + x ^ 2) := by rw [Complex.norm_def, Complex.normSq_mk]; congr 1; ring
  have c := Complex.norm_mul_cos_arg ⟨x, r⟩
  have s := Complex.norm_mul_sin_arg ⟨x, r⟩
  rw [hn] at c s
  simp only at c s
  unfold rankShape arctan2
  simp only
  rw [s, eq_div_of_mul_eq hρ.ne' ((mul_comm _ _).trans c)]

lemma shape_origin (m ws : ℝ) : rankShape m ws 0 0 = 1 := by
  have : Complex.arg ⟨0, 0⟩ = 0 := Complex.arg_zero
  simp [rankShape, arctan2, this]

lemma outside_far (m ws x r : ℝ) (hm : 0 ≤ m) (hws : 0 ≤ ws) (h : rankShape m ws x r < -1 ∨ x < rankXs m ws) :
    0 < √(r ^ 2 + x ^ 2) ∧ m ≤ (4 * ws + 1e-15) * √(r ^ 2 + x ^ 2) ^ 2 := by
  have hε : (0 : ℝ) < 4 * ws + 1e-15 := by positivity
  by_cases hρ : 0 < √(r ^ 2 + x ^ 2)
  · refine ⟨hρ, ?_⟩
    have hsq : √(r ^ 2 + x ^ 2) ^ 2 = r ^ 2 + x ^ 2 := Real.sq_sqrt (by positivity)
    rcases h with h | h
    · rw [shape_closed m ws x r hρ] at h
      set ρ := √(r ^ 2 + x ^ 2) with hρd
      have hme : 0 < m + 1e-15 := by positivity
      have hxρ : |x| ≤ ρ := by rw [hρd, ← Real.sqrt_sq_eq_abs]; exact Real.sqrt_le_sqrt (by nlinarith [sq_nonneg r])
      obtain ⟨ha, hb⟩ := abs_le.1 hxρ
      have h1 : (m + 1e-15) * (ρ + x) < 2 * ws * r ^ 2 * ρ := by
        have e : (2 / (m + 1e-15) * ws * r ^ 2 - (1 + x / ρ)) * ((m + 1e-15) * ρ) = 2 * ws * r ^ 2 * ρ - (m + 1e-15) * (ρ + x) := by
          field_simp
        have : 0 < (2 / (m + 1e-15) * ws * r ^ 2 - (1 + x / ρ)) * ((m + 1e-15) * ρ) := mul_pos (by linarith) (by positivity)
        linarith
      have hr2 : r ^ 2 = (ρ - x) * (ρ + x) := by nlinarith
      have hpos : 0 < ρ + x := by
        rcases lt_or_eq_of_le (show 0 ≤ ρ + x by linarith) with h | h
        · exact h
        · rw [hr2, ← h] at h1; norm_num at h1
      have h2 : m + 1e-15 < 2 * ws * (ρ - x) * ρ := by
        rw [hr2] at h1
        have : (m + 1e-15) * (ρ + x) < 2 * ws * (ρ - x) * ρ * (ρ + x) := by nlinarith
        exact lt_of_mul_lt_mul_right this hpos.le
      have h3 : 2 * ws * (ρ - x) * ρ ≤ 2 * ws * (2 * ρ) * ρ := by
        have : 2 * ws * (ρ - x) ≤ 2 * ws * (2 * ρ) := mul_le_mul_of_nonneg_left (by linarith) (by linarith)
        exact mul_le_mul_of_nonneg_right this hρ.le
      norm_num at h2 ⊢
      nlinarith [sq_nonneg ρ]
    · unfold rankXs at h
      have h1 : m / (4 * ws + 1e-15) ≤ x ^ 2 := by
        have h0 := Real.sqrt_nonneg (m / (4 * ws + 1e-15))
        have := Real.sq_sqrt (show 0 ≤ m / (4 * ws + 1e-15) by positivity)
        nlinarith
      rw [div_le_iff₀ hε] at h1
      rw [hsq]
      nlinarith [sq_nonneg r, mul_nonneg hε.le (sq_nonneg r)]
  · exfalso
    have h0 : r ^ 2 + x ^ 2 = 0 := le_antisymm (Real.sqrt_eq_zero'.1 (le_antisymm (not_lt.1 hρ) (Real.sqrt_nonneg _))) (by positivity)
    have hx : x = 0 := by nlinarith [sq_nonneg r, sq_nonneg x]
    have hr : r = 0 := by nlinarith [sq_nonneg r, sq_nonneg x]
    subst hx hr
    rcases h with h | h
    · rw [shape_origin] at h; norm_num at h
    · unfold rankXs at h
      linarith [Real.sqrt_nonneg (m / (4 * ws + 1e-15))]

lemma inside_value (m ws : ℝ) (hm : 0 < m) (hws : 0 ≤ ws) :
    m / (4 * √(rankXs m ws ^ 2 + 0 ^ 2 + 0 ^ 2) ^ 3) * rankXs m ws = -(ws + 1e-15 / 4) := by
  have hε : (0 : ℝ) < 4 * ws + 1e-15 := by positivity
  have hq : 0 < m / (4 * ws + 1e-15) := by positivity
  unfold rankXs
  have hs : 0 < √(m / (4 * ws + 1e-15)) := Real.sqrt_pos.2 hq
  have e : √((-√(m / (4 * ws + 1e-15))) ^ 2 + 0 ^ 2 + 0 ^ 2) = √(m / (4 * ws + 1e-15)) := by
    rw [show (-√(m / (4 * ws + 1e-15))) ^ 2 + 0 ^ 2 + 0 ^ 2 = √(m / (4 * ws + 1e-15)) ^ 2 by ring, Real.sqrt_sq hs.le]
  have hss : √(m / (4 * ws + 1e-15)) ^ 2 = m / (4 * ws + 1e-15) := Real.sq_sqrt hq.le
  rw [e]
  set s := √(m / (4 * ws + 1e-15))
  have : m / (4 * s ^ 3) * -s = -(m / (4 * s ^ 2)) := by field_simp
  rw [this, hss]
  field_simp

/-- Rankine half body: at every point the disturbance of the wind vector is at most as large as the wind speed at the rotor (up to the regularisation
of the code), so the wind is never reversed. -/
theorem C59_rankine_bounded (a : ℝ → ℝ) (ws D ct x y z : ℝ) (hx : np12 x = x) (ha : 0 ≤ a ct) (hws : 0 ≤ ws) :
    (rankine a ws D ct x y z).1 ^ 2 + (rankine a ws D ct x y z).2 ^ 2 ≤ (ws + 1e-15 / 4) ^ 2 := by
  have hm : 0 ≤ rankM a ws D ct := by unfold rankM; positivity
  set m := rankM a ws D ct with hmd
  have hρe : √(√(y ^ 2 + z ^ 2) ^ 2 + x ^ 2) = √(x ^ 2 + y ^ 2 + z ^ 2) := by
    rw [Real.sq_sqrt (by positivity)]; congr 1; ring
  have hb : (0 : ℝ) ≤ ws + 1e-15 / 4 := by positivity
  unfold rankine
  simp only [hx, ← hmd]
  by_cases h1 : 1e-8 < ct ∧ (rankShape m ws x √(y ^ 2 + z ^ 2) < -1 ∨ x < rankXs m ws)
  · have h2 : ¬ (1e-8 < ct ∧ -1 ≤ rankShape m ws x √(y ^ 2 + z ^ 2) ∧ rankXs m ws ≤ x ∧ x ≤ 0) := by
      rintro ⟨-, h3, h4, -⟩
      rcases h1.2 with h | h <;> linarith
    simp only [if_pos h1, if_neg h2, add_zero]
    obtain ⟨p1, p2⟩ := outside_far m ws x _ hm hws h1.2
    rw [hρe] at p1 p2
    set ρ := √(x ^ 2 + y ^ 2 + z ^ 2) with hρ
    have hρ2 : ρ ^ 2 = x ^ 2 + y ^ 2 + z ^ 2 := Real.sq_sqrt (by positivity)
    have hf : m / (4 * ρ ^ 3) * ρ ≤ ws + 1e-15 / 4 := by
      have e : m / (4 * ρ ^ 3) * ρ = m / (4 * ρ ^ 2) := by field_simp
      rw [e, div_le_iff₀ (by positivity)]
      linarith
    have hf0 : 0 ≤ m / (4 * ρ ^ 3) * ρ := by positivity
    have h5 : (m / (4 * ρ ^ 3) * ρ) ^ 2 ≤ (ws + 1e-15 / 4) ^ 2 := by gcongr
    have h6 : (m / (4 * ρ ^ 3) * x) ^ 2 + (m / (4 * ρ ^ 3) * y) ^ 2 ≤ (m / (4 * ρ ^ 3) * ρ) ^ 2 := by
      rw [mul_pow, mul_pow, mul_pow, hρ2]
      nlinarith [mul_nonneg (sq_nonneg (m / (4 * ρ ^ 3))) (sq_nonneg z)]
    exact h6.trans h5
  · simp only [if_neg h1]
    by_cases h2 : 1e-8 < ct ∧ -1 ≤ rankShape m ws x √(y ^ 2 + z ^ 2) ∧ rankXs m ws ≤ x ∧ x ≤ 0
    · simp only [if_pos h2]
      rcases hm.lt_or_eq with h | h
      · rw [inside_value m ws h hws]; nlinarith
      · rw [← h]; simp; positivity
    · simp only [if_neg h2]; norm_num; positivity

/-- Rankine half body: upstream the wind is slowed down, downstream of the rotor it is not; it is deflected away from the axis. -/
theorem C59_rankine_signs (a : ℝ → ℝ) (ws D ct x y z : ℝ) (hx : np12 x = x) (ha : 0 ≤ a ct) (hws : 0 ≤ ws) :
    (x ≤ 0 → (rankine a ws D ct x y z).1 ≤ 0) ∧ (0 < x → 0 ≤ (rankine a ws D ct x y z).1) ∧ 0 ≤ (rankine a ws D ct x y z).2 * y := by
  have hm : 0 ≤ rankM a ws D ct := by unfold rankM; positivity
  set m := rankM a ws D ct with hmd
  have hxs : rankXs m ws ≤ 0 := by unfold rankXs; linarith [Real.sqrt_nonneg (m / (4 * ws + 1e-15))]
  have hf : 0 ≤ m / (4 * √(x ^ 2 + y ^ 2 + z ^ 2) ^ 3) := by positivity
  have hg : 0 ≤ m / (4 * √(rankXs m ws ^ 2 + 0 ^ 2 + 0 ^ 2) ^ 3) := by positivity
  unfold rankine
  simp only [hx, ← hmd]
  refine ⟨fun h => ?_, fun h => ?_, ?_⟩
  · refine add_nonpos ?_ ?_
    · split_ifs
      · exact mul_nonpos_of_nonneg_of_nonpos hf h
      · exact le_refl _
    · split_ifs
      · exact mul_nonpos_of_nonneg_of_nonpos hg hxs
      · exact le_refl _
  · refine add_nonneg ?_ ?_
    · split_ifs
      · exact mul_nonneg hf h.le
      · exact le_refl _
    · rw [if_neg (fun hh => absurd hh.2.2.2 (not_le.2 h))]
  · split_ifs
    · simp only; rw [mul_assoc]; exact mul_nonneg hf (mul_self_nonneg y)
    · simp

/-- Rankine half body: within the half body upstream of the rotor the wind is brought to a halt; within the half body downstream nothing is changed. -/
theorem C59_rankine_inside (a : ℝ → ℝ) (ws D ct x y z : ℝ) (hx : np12 x = x) (hct : 1e-8 < ct) (ha : 0 < a ct) (hws : 0 < ws) (hD : 0 < D)
    (h : -1 ≤ rankShape (rankM a ws D ct) ws x √(y ^ 2 + z ^ 2)) (h' : rankXs (rankM a ws D ct) ws ≤ x) :
    rankine a ws D ct x y z = if x ≤ 0 then (-(ws + 1e-15 / 4), 0) else (0, 0) := by
  have hm : 0 < rankM a ws D ct := by unfold rankM; positivity
  have hout : ¬ (1e-8 < ct ∧ (rankShape (rankM a ws D ct) ws x √(y ^ 2 + z ^ 2) < -1 ∨ x < rankXs (rankM a ws D ct) ws)) := by
    rintro ⟨-, h1 | h1⟩ <;> linarith
  unfold rankine
  simp only [hx, if_neg hout]
  by_cases h0 : x ≤ 0
  · rw [if_pos ⟨hct, h, h', h0⟩, if_pos h0, inside_value _ ws hm hws.le]; simp
  · rw [if_neg (fun hh => h0 hh.2.2.2), if_neg h0]; simp

/-- Rankine half body: on the axis upstream of the stagnation point the slow-down falls with the square of the distance. -/
lemma rankine_axis (a : ℝ → ℝ) (ws D ct x : ℝ) (hx : np12 x = x) (hct : 1e-8 < ct) (h : x < rankXs (rankM a ws D ct) ws) :
    rankine a ws D ct x 0 0 = (-(rankM a ws D ct / (4 * x ^ 2)), 0) := by
  have hxs : rankXs (rankM a ws D ct) ws ≤ 0 := by
    unfold rankXs; linarith [Real.sqrt_nonneg (rankM a ws D ct / (4 * ws + 1e-15))]
  have hneg : x < 0 := lt_of_lt_of_le h hxs
  have hin : ¬ (1e-8 < ct ∧ -1 ≤ rankShape (rankM a ws D ct) ws x √(0 ^ 2 + 0 ^ 2) ∧ rankXs (rankM a ws D ct) ws ≤ x ∧ x ≤ 0) := by
    rintro ⟨-, -, h2, -⟩; linarith
  unfold rankine
  simp only [hx, if_neg hin]
  rw [if_pos ⟨hct, Or.inr h⟩]
  have e : √(x ^ 2 + 0 ^ 2 + 0 ^ 2) = -x := by
    rw [show x ^ 2 + 0 ^ 2 + 0 ^ 2 = (-x) ^ 2 by ring, Real.sqrt_sq (by linarith)]
  rw [e]
  simp only [add_zero, mul_zero]
  congr 1
  have : x ≠ 0 := hneg.ne
  field_simp

/-- Rankine half body: on the axis, farther than `D √(a / 8)` upstream, the wind speed is reduced by `a D² / (8 x²)` of the undisturbed one. -/
theorem C59_rankine_axis (a : ℝ → ℝ) (ws D ct x : ℝ) (hx : np12 x = x) (hct : 1e-8 < ct) (ha : 0 ≤ a ct) (hws : 0 < ws) (h0 : x < 0)
    (h : a ct * D ^ 2 / 8 < x ^ 2) : rankine a ws D ct x 0 0 = (-(ws * (a ct * D ^ 2 / (8 * x ^ 2))), 0) := by
  have hm : 0 ≤ rankM a ws D ct := by unfold rankM; positivity
  rw [rankine_axis a ws D ct x hx hct]
  · congr 1
    unfold rankM
    have : x ≠ 0 := h0.ne
    field_simp
    ring
  · unfold rankXs
    have : √(rankM a ws D ct / (4 * ws + 1e-15)) < -x := by
      rw [Real.sqrt_lt' (by linarith)]
      refine lt_of_le_of_lt ?_ (by rw [neg_sq]; exact h)
      rw [div_le_iff₀ (by positivity)]
      unfold rankM
      have : 0 ≤ a ct * D ^ 2 := by positivity
      nlinarith
    linarith

lemma uv_periodic (wd ws : ℝ) (k : ℤ) : wd2uv (wd + 360 * k) ws = wd2uv wd ws := by
  have : (wd + 360 * k) * Real.pi / 180 = wd * Real.pi / 180 + k * (2 * Real.pi) := by ring
  simp only [wd2uv, wd2wdvec, this, Real.sin_add_int_mul_two_pi, Real.cos_add_int_mul_two_pi]

/-- The deltas of wind speed and wind direction give the sum of the ambient wind vector and the disturbance, whose components are along and across
the ambient wind. -/
theorem C59_rankine_wind (ws wd u v : ℝ) (h0 : 0 ≤ wd) (h1 : wd < 360) :
    wd2uv (wd + (rankFinal ws wd u v).2) (ws + (rankFinal ws wd u v).1) =
      ((wd2uv wd ws).1 + u * (wd2uv wd 1).1 - v * (wd2uv wd 1).2, (wd2uv wd ws).2 + u * (wd2uv wd 1).2 + v * (wd2uv wd 1).1) := by
  unfold rankFinal
  simp only
  set w : ℝ × ℝ := ((wd2uv wd 1).1 * ws + (u * (wd2uv wd 1).1 + v * -(wd2uv wd 1).2), (wd2uv wd 1).2 * ws + (u * (wd2uv wd 1).2 + v * (wd2uv wd 1).1))
    with hw
  obtain ⟨r0, r1⟩ := Foxes.Props.WindDir.C31_range w
  obtain ⟨-, -, ⟨k, hk⟩, -, -⟩ := Foxes.Props.WindDir.C31_delta_wd wd (uv2wd w) (abs_le.2 ⟨by linarith, by linarith⟩)
  have e : wd + deltaWd wd (uv2wd w) = uv2wd w + 360 * ((-k : ℤ) : ℝ) := by push_cast; linarith
  rw [e, uv_periodic, add_sub_cancel, Foxes.Props.WindDir.C31_vector_round_trip w, hw]
  have hsc : wd2uv wd ws = ((wd2uv wd 1).1 * ws, (wd2uv wd 1).2 * ws) := by
    simp only [wd2uv, wd2wdvec]; ext <;> simp <;> ring
  rw [hsc]
  ext <;> simp <;> ring

/-- Without disturbance wind speed and wind direction do not change. -/
theorem C59_rankine_neutral (ws wd : ℝ) (hws : 0 < ws) (h0 : 0 ≤ wd) (h1 : wd < 360) : rankFinal ws wd 0 0 = (0, 0) := by
  have hsc : wd2uv wd ws = ((wd2uv wd 1).1 * ws, (wd2uv wd 1).2 * ws) := by
    simp only [wd2uv, wd2wdvec]; ext <;> simp <;> ring
  have hn := (Foxes.Props.WindDir.C31_convention wd ws).2.2.2.2.1
  have hr := ((Foxes.Props.WindDir.C31_direction_round_trip wd ws hws).1 h0 h1).1
  unfold rankFinal
  simp only [zero_mul, add_zero]
  rw [hsc] at hn hr
  simp only at hn
  rw [hr, hn, Real.sqrt_sq hws.le]
  have hd : deltaWd wd wd = 0 := by unfold deltaWd; norm_num
  rw [hd]; simp

/-- Both self-similar models slow the wind down everywhere upstream, and less at larger distance from the axis. -/
theorem C59_selfsimilar_radial (a : ℝ → ℝ) (gamma : ℝ) (pre : Bool) (D ct x r r' : ℝ) (hct : 1e-8 < ct) (hct1 : ct ≤ 1) (hD : 0 < D) (hx : x ≤ 0)
    (hg : 0 ≤ gamma) (ha : ∀ c, 0 ≤ c → 0 ≤ a c) (hr : 0 ≤ r) (hrr : r ≤ r') :
    (∃ v v', selfSimilar a gamma pre D ct x r = some (some v) ∧ selfSimilar a gamma pre D ct x r' = some (some v') ∧ v ≤ v' ∧ v' ≤ 0) ∧
    ∃ v v', selfSimilar2020 a pre D ct x r = some (some v) ∧ selfSimilar2020 a pre D ct x r' = some (some v') ∧ v ≤ v' ∧ v' ≤ 0 := by
  have h0 : 0 ≤ ct := le_trans (by norm_num) hct.le
  constructor
  · have ha0 : ∀ t ≤ (0 : ℝ), 0 ≤ (fun ct (_ : ℝ) => a (gamma * ct)) ct t := fun t _ => ha _ (mul_nonneg hg h0)
    obtain ⟨v, e, -, -, h⟩ := C59_selfsim_upstream (fun ct _ => a (gamma * ct)) (fun x => √(0.587 * (1.32 + x ^ 2))) pre D ct x r hct hD hx ha0
    obtain ⟨v', e', hv⟩ := h (fun t ht => (half_radius_pos t ht).1) hr r' hrr
    obtain ⟨w, e2, -, hw, -⟩ := C59_selfsim_upstream (fun ct _ => a (gamma * ct)) (fun x => √(0.587 * (1.32 + x ^ 2))) pre D ct x r' hct hD hx ha0
    rw [e'] at e2
    obtain rfl : v' = w := by simpa using e2
    exact ⟨v, v', e, e', hv, hw⟩
  · have ha0 : ∀ t ≤ (0 : ℝ), 0 ≤ (fun ct x => a (gamma2020 ct x * ct)) ct t :=
      fun t _ => ha _ (mul_nonneg (le_trans (by norm_num) (C59_gamma2020 ct t h0 hct1).1) h0)
    obtain ⟨v, e, -, -, h⟩ := C59_selfsim_upstream (fun ct x => a (gamma2020 ct x * ct)) (fun x => -0.672 * x + 0.4897) pre D ct x r hct hD hx ha0
    obtain ⟨v', e', hv⟩ := h (fun t ht => (half_radius_pos t ht).2) hr r' hrr
    obtain ⟨w, e2, -, hw, -⟩ := C59_selfsim_upstream (fun ct x => a (gamma2020 ct x * ct)) (fun x => -0.672 * x + 0.4897) pre D ct x r' hct hD hx ha0
    rw [e'] at e2
    obtain rfl : v' = w := by simpa using e2
    exact ⟨v, v', e, e', hv, hw⟩

/-! ## Non-vacuity -/

/-- with the Betz-like induction `a = ct / 4`: one diameter upstream, half a diameter off the axis -/
example : ∃ v, vortexSheet (fun c => c / 4) false 100 0.8 (-100) 50 = some v ∧ -(0.8 / 4) ≤ v ∧ v < 0 :=
  (C59_vortex_upstream (fun c => c / 4) false 100 0.8 (by norm_num) (by norm_num) (by norm_num)).2.1 (-100) 50 (by norm_num)

example : rathmann (fun c => c / 4) false 100 0.8 0 0 = some (some 0) :=
  (C59_rathmann_hub (fun c => c / 4) false 100 0.8 (by norm_num) (by norm_num)).1

example : selfSimilar (fun c => c / 4) 1.1 false 100 0.8 0 0 = some (some (-(1.1 * 0.8 / 4))) :=
  (C59_selfsimilar_axis (fun c => c / 4) 1.1 false 100 0.8 0 0 (by norm_num) (by norm_num) (le_refl _) (le_refl _) (by norm_num)).1

/-- at the hub of a turbine the Rankine half body brings the wind to a halt -/
example : rankine (fun c => c / 4) 10 100 0.8 0 0 0 = (-(10 + 1e-15 / 4), 0) := by
  have hs : rankShape (rankM (fun c => c / 4) 10 100 0.8) 10 0 √((0 : ℝ) ^ 2 + 0 ^ 2) = 1 := by
    rw [show √((0 : ℝ) ^ 2 + 0 ^ 2) = 0 by norm_num]; exact shape_origin _ _
  rw [C59_rankine_inside (fun c => c / 4) 10 100 0.8 0 0 0 np12_zero (by norm_num) (by norm_num) (by norm_num) (by norm_num) (by rw [hs]; norm_num)
    (by unfold rankXs; linarith [Real.sqrt_nonneg (rankM (fun c => c / 4) 10 100 0.8 / (4 * 10 + 1e-15))])]
  simp

/-- 200 m upstream of it, the slow-down is 10 * 2 * 0.2 * 50² / (4 * 200²) -/
example : rankine (fun c => c / 4) 10 100 0.8 (-200) 0 0 = (-0.0625, 0) := by
  have hi : np12 (-200) = -200 := by have := np12_int (-200); push_cast at this; exact this
  have hm : rankM (fun c => c / 4) 10 100 0.8 = 10000 := by unfold rankM; norm_num
  rw [rankine_axis _ 10 100 0.8 (-200) hi (by norm_num) ?_, hm]
  · norm_num
  · rw [hm]
    unfold rankXs
    have : √((10000 : ℝ) / (4 * 10 + 1e-15)) < 200 := by rw [Real.sqrt_lt' (by norm_num)]; norm_num
    linarith

end Foxes.Props.Induction
