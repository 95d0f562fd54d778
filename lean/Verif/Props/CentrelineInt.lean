import Verif.Model.CentrelineInt
import Verif.Props.WakeModels
import Mathlib.Analysis.Calculus.Deriv.MeanValue
import Mathlib.Analysis.Calculus.Deriv.Pow
import Mathlib.Tactic.Ring
import Mathlib.Tactic.Linarith
import Mathlib.Tactic.FieldSimp
/-
C58: integrals along the wake centreline.
-/
namespace Foxes.Props.CentrelineInt
open Foxes.CentrelineInt Foxes.WakeModels

/-! ## Specification -/

/-- the integral from 0 to `x` of the step function that has the value `f ((i + 1) * dx)` between `i * dx` and `(i + 1) * dx` -/
noncomputable def stepIntegral (f : ℝ → ℝ) (dx x : ℝ) : ℝ :=
  ∑ i ∈ Finset.range ⌊x / dx⌋₊, f (((i : ℝ) + 1) * dx) * dx + (x - ⌊x / dx⌋₊ * dx) * f (((⌊x / dx⌋₊ : ℝ) + 1) * dx)

/-! ## Helpers -/

lemma iresults_sum (f : ℝ → ℝ) (dx : ℝ) (n : ℕ) : iresults f dx n = ∑ i ∈ Finset.range n, f (((i : ℝ) + 1) * dx) * dx := by
  induction n with
  | zero => rfl
  | succ n ih => rw [iresults, ih, Finset.sum_range_succ]; push_cast; rw [zero_add]

lemma cell_spec (dx x : ℝ) (hdx : 0 < dx) (hx : 0 ≤ x) (k : ℕ) : cell dx x k = min k ⌊x / dx⌋₊ := by
  induction k with
  | zero => simp [cell]
  | succ k ih =>
    have hq : 0 ≤ x / dx := div_nonneg hx hdx.le
    by_cases h : ((k + 1 : ℕ) : ℝ) * dx ≤ x
    · rw [cell, if_pos h]
      have : k + 1 ≤ ⌊x / dx⌋₊ := Nat.le_floor (by rw [le_div_iff₀ hdx]; exact h)
      omega
    · rw [cell, if_neg h, ih]
      have : ¬ k + 1 ≤ ⌊x / dx⌋₊ := fun hh => h (by
        have := Nat.floor_le hq
        rw [← le_div_iff₀ hdx]
        exact le_trans (by exact_mod_cast hh) this)
      omega

lemma floor_bounds (dx x : ℝ) (hdx : 0 < dx) (hx : 0 ≤ x) : (⌊x / dx⌋₊ : ℝ) * dx ≤ x ∧ x < (⌊x / dx⌋₊ + 1) * dx := by
  constructor
  · have := Nat.floor_le (div_nonneg hx hdx.le)
    rwa [le_div_iff₀ hdx] at this
  · have := Nat.lt_floor_add_one (x / dx)
    rwa [div_lt_iff₀ hdx] at this

lemma floor_eq (dx x : ℝ) (hdx : 0 < dx) (m : ℕ) (h1 : m * dx ≤ x) (h2 : x < (m + 1) * dx) : ⌊x / dx⌋₊ = m := by
  rw [Nat.floor_eq_iff (div_nonneg ((mul_nonneg (Nat.cast_nonneg m) hdx.le).trans h1) hdx.le), le_div_iff₀ hdx, div_lt_iff₀ hdx]
  exact ⟨h1, h2⟩

lemma step_cell (f : ℝ → ℝ) (dx x : ℝ) (hdx : 0 < dx) (m : ℕ) (h1 : m * dx ≤ x) (h2 : x ≤ (m + 1) * dx) :
    stepIntegral f dx x = ∑ i ∈ Finset.range m, f (((i : ℝ) + 1) * dx) * dx + (x - m * dx) * f (((m : ℝ) + 1) * dx) := by
  unfold stepIntegral
  rcases h2.lt_or_eq with h | h
  · rw [floor_eq dx x hdx m h1 h]
  · have : ⌊x / dx⌋₊ = m + 1 := floor_eq dx x hdx (m + 1) (by push_cast; linarith) (by push_cast; linarith)
    rw [this, Finset.sum_range_succ, h]
    push_cast
    ring

lemma interp_spec (f : ℝ → ℝ) (dx x : ℝ) (hdx : 0 < dx) (n : ℕ) (h0 : 0 ≤ x) (h1 : x ≤ n * dx) :
    interp dx n (iresults f dx) x = stepIntegral f dx x := by
  unfold interp
  rw [if_neg (by push Not; exact ⟨h0, h1⟩)]
  split_ifs with hn
  · subst hn
    have : x = 0 := by push_cast at h1; linarith
    subst this
    simp [iresults, stepIntegral]
  · have hb := floor_bounds dx x hdx h0
    rw [cell_spec dx x hdx h0]
    set m := min (n - 1) ⌊x / dx⌋₊ with hm
    have hm1 : (m : ℝ) * dx ≤ x := by
      refine le_trans (mul_le_mul_of_nonneg_right ?_ hdx.le) hb.1
      exact_mod_cast min_le_right _ _
    have hm2 : x ≤ (m + 1) * dx := by
      rcases le_total (n - 1) ⌊x / dx⌋₊ with h | h
      · rw [hm, min_eq_left h, Nat.cast_sub (by omega)]; push_cast; linarith
      · rw [hm, min_eq_right h]; exact hb.2.le
    rw [step_cell f dx x hdx m hm1 hm2]
    simp only [iresults, iresults_sum]
    push_cast
    rw [zero_add]
    have e : (((m : ℝ) + 1) * dx - m * dx) = dx := by ring
    rw [e]
    have e2 : (x - m * dx) / dx * dx = x - m * dx := by field_simp
    linear_combination f ((m + 1) * dx) * e2

lemma pyInt_pos (q : ℝ) (h : 0 ≤ q) : pyInt q = (⌊q⌋₊ : ℤ) := by
  rw [pyInt, if_pos h]; exact (Int.natCast_floor_eq_floor h).symm

lemma nSteps_nonneg (xmax dx : ℝ) (hdx : 0 < dx) (h : 0 ≤ xmax) :
    0 ≤ nSteps xmax dx ∧ xmax ≤ nSteps xmax dx * dx ∧ nSteps xmax dx * dx < xmax + dx := by
  have hb := floor_bounds dx xmax hdx h
  unfold nSteps
  simp only [sub_zero, zero_add, pyInt_pos _ (div_nonneg h hdx.le), Int.cast_natCast]
  split_ifs with hc
  · refine ⟨by positivity, ?_, ?_⟩
    · push_cast; linarith [hb.2]
    · push_cast; linarith [hb.1]
  · refine ⟨by positivity, ?_, ?_⟩
    · push_cast; exact not_lt.1 hc
    · push_cast; linarith

lemma foldl_max (xall : List ℝ) : ∀ x0 : ℝ, x0 ≤ xall.foldl max x0 ∧ (∀ x ∈ xall, x ≤ xall.foldl max x0) ∧
    (xall.foldl max x0 = x0 ∨ xall.foldl max x0 ∈ xall) := by
  induction xall with
  | nil => intro x0; simp
  | cons a l ih =>
    intro x0
    obtain ⟨h1, h2, h3⟩ := ih (max x0 a)
    simp only [List.foldl_cons, List.mem_cons, forall_eq_or_imp]
    refine ⟨(le_max_left _ _).trans h1, ⟨(le_max_right _ _).trans h1, h2⟩, ?_⟩
    rcases h3 with h | h
    · rw [h]
      rcases max_choice x0 a with h' | h' <;> rw [h'] <;> simp
    · exact Or.inr (Or.inr h)

lemma nanmax_ge (x0 : ℝ) (xall : List ℝ) (x : ℝ) (hx : x ∈ x0 :: xall) : x ≤ nanmax x0 xall := by
  rcases List.mem_cons.1 hx with rfl | h
  · exact (foldl_max xall x).1
  · exact (foldl_max xall x0).2.1 x h

lemma nanmax_mem (x0 : ℝ) (xall : List ℝ) : nanmax x0 xall ∈ x0 :: xall := by
  rcases (foldl_max xall x0).2.2 with h | h
  · unfold nanmax; rw [h]; simp
  · exact List.mem_cons_of_mem _ h

/-! ## Theorems -/

/-- For every function, step size and set of points: the result at a point between the rotor and the maximal length is the integral of the step
function that has the values of the function at the ends of the steps, from 0 to the point. -/
theorem C58_spec (f : ℝ → ℝ) (maxLen dx : ℝ) (hdx : 0 < dx) (x0 : ℝ) (xall : List ℝ) (x : ℝ) (hx : x ∈ x0 :: xall) (h0 : 0 ≤ x)
    (h1 : x ≤ maxLen) : integral f maxLen dx x0 xall x = some (stepIntegral f dx x) := by
  have hle : x ≤ min (nanmax x0 xall) maxLen := le_min (nanmax_ge x0 xall x hx) h1
  obtain ⟨a, b, -⟩ := nSteps_nonneg _ dx hdx (h0.trans hle)
  unfold integral
  simp only [if_neg (not_lt.2 a)]
  rw [interp_spec f dx x hdx _ h0]
  have : (((nSteps (min (nanmax x0 xall) maxLen) dx).toNat : ℤ) : ℝ) = (nSteps (min (nanmax x0 xall) maxLen) dx : ℝ) := by
    rw [Int.toNat_of_nonneg a]
  rw [Int.cast_natCast] at this
  rw [this]
  exact hle.trans b

/-- The other points of the chunk have no influence. -/
theorem C58_other_points (f : ℝ → ℝ) (maxLen dx : ℝ) (hdx : 0 < dx) (x0 x0' : ℝ) (xall xall' : List ℝ) (x : ℝ) (hx : x ∈ x0 :: xall)
    (hx' : x ∈ x0' :: xall') (h0 : 0 ≤ x) (h1 : x ≤ maxLen) : integral f maxLen dx x0 xall x = integral f maxLen dx x0' xall' x := by
  rw [C58_spec f maxLen dx hdx x0 xall x hx h0 h1, C58_spec f maxLen dx hdx x0' xall' x hx' h0 h1]

/-- A constant integrates to the constant times the distance. -/
theorem C58_constant (c : ℝ) (maxLen dx : ℝ) (hdx : 0 < dx) (x0 : ℝ) (xall : List ℝ) (x : ℝ) (hx : x ∈ x0 :: xall) (h0 : 0 ≤ x)
    (h1 : x ≤ maxLen) : integral (fun _ => c) maxLen dx x0 xall x = some (c * x) := by
  rw [C58_spec _ maxLen dx hdx x0 xall x hx h0 h1, stepIntegral]
  simp only [Finset.sum_const, Finset.card_range, nsmul_eq_mul]
  congr 1; ring

/-- The integral is additive and homogeneous in the function. -/
theorem C58_linear (f g : ℝ → ℝ) (c maxLen dx : ℝ) (hdx : 0 < dx) (x0 : ℝ) (xall : List ℝ) (x : ℝ) (hx : x ∈ x0 :: xall) (h0 : 0 ≤ x)
    (h1 : x ≤ maxLen) : ∃ F G, integral f maxLen dx x0 xall x = some F ∧ integral g maxLen dx x0 xall x = some G ∧
      integral (fun t => f t + c * g t) maxLen dx x0 xall x = some (F + c * G) := by
  refine ⟨_, _, C58_spec f maxLen dx hdx x0 xall x hx h0 h1, C58_spec g maxLen dx hdx x0 xall x hx h0 h1, ?_⟩
  rw [C58_spec _ maxLen dx hdx x0 xall x hx h0 h1]
  simp only [stepIntegral, add_mul, mul_add, Finset.sum_add_distrib, Finset.mul_sum]
  congr 1
  have : ∀ t : ℝ, c * g t * dx = c * (g t * dx) := fun i => by ring
  simp only [this]
  ring

lemma step_mono (f g : ℝ → ℝ) (dx : ℝ) (hdx : 0 < dx) (hfg : ∀ t, 0 < t → f t ≤ g t) (x : ℝ) (h0 : 0 ≤ x) :
    stepIntegral f dx x ≤ stepIntegral g dx x := by
  have hb := floor_bounds dx x hdx h0
  unfold stepIntegral
  refine add_le_add (Finset.sum_le_sum fun i _ => mul_le_mul_of_nonneg_right (hfg _ (by positivity)) hdx.le)
    (mul_le_mul_of_nonneg_left (hfg _ (by positivity)) (by linarith [hb.1]))

/-- A larger function has a larger integral; bounds of the function carry over to the integral. -/
theorem C58_bounds (f : ℝ → ℝ) (m M maxLen dx : ℝ) (hdx : 0 < dx) (hm : ∀ t, 0 < t → m ≤ f t) (hM : ∀ t, 0 < t → f t ≤ M) (x0 : ℝ)
    (xall : List ℝ) (x : ℝ) (hx : x ∈ x0 :: xall) (h0 : 0 ≤ x) (h1 : x ≤ maxLen) :
    ∃ F, integral f maxLen dx x0 xall x = some F ∧ m * x ≤ F ∧ F ≤ M * x := by
  refine ⟨_, C58_spec f maxLen dx hdx x0 xall x hx h0 h1, ?_, ?_⟩
  · have a := C58_constant m maxLen dx hdx x0 xall x hx h0 h1
    rw [C58_spec _ maxLen dx hdx x0 xall x hx h0 h1] at a
    rw [← Option.some.inj a]
    exact step_mono _ _ dx hdx hm x h0
  · have a := C58_constant M maxLen dx hdx x0 xall x hx h0 h1
    rw [C58_spec _ maxLen dx hdx x0 xall x hx h0 h1] at a
    rw [← Option.some.inj a]
    exact step_mono _ _ dx hdx hM x h0

lemma step_step (f : ℝ → ℝ) (dx x : ℝ) (hdx : 0 < dx) (m : ℕ) (h1 : m * dx ≤ x) (h2 : x ≤ (m + 1) * dx) :
    stepIntegral f dx x = stepIntegral f dx (m * dx) + (x - m * dx) * f (((m : ℝ) + 1) * dx) := by
  rw [step_cell f dx x hdx m h1 h2, step_cell f dx (m * dx) hdx m (le_refl _) (by linarith)]
  ring

lemma step_grid_mono (f : ℝ → ℝ) (dx : ℝ) (hdx : 0 < dx) (hf : ∀ t, 0 < t → 0 ≤ f t) (m n : ℕ) (h : m ≤ n) :
    stepIntegral f dx (m * dx) ≤ stepIntegral f dx (n * dx) := by
  induction n with
  | zero => rw [Nat.le_zero.1 h]
  | succ n ih =>
    rcases Nat.lt_or_ge n m with hh | hh
    · rw [show m = n + 1 by omega]
    · refine (ih hh).trans ?_
      have e := step_step f dx ((n + 1 : ℕ) * dx) hdx n (by push_cast; linarith) (by push_cast; linarith)
      rw [e]
      have : 0 ≤ (((n + 1 : ℕ) : ℝ) * dx - n * dx) * f (((n : ℝ) + 1) * dx) :=
        mul_nonneg (by push_cast; linarith) (hf _ (by positivity))
      linarith

/-- For a function without negative values, the integral grows with the distance, within the maximal length. -/
theorem C58_monotone (f : ℝ → ℝ) (maxLen dx : ℝ) (hdx : 0 < dx) (hf : ∀ t, 0 < t → 0 ≤ f t) (x0 : ℝ) (xall : List ℝ) (x y : ℝ)
    (hx : x ∈ x0 :: xall) (hy : y ∈ x0 :: xall) (h0 : 0 ≤ x) (hxy : x ≤ y) (h1 : y ≤ maxLen) :
    ∃ F G, integral f maxLen dx x0 xall x = some F ∧ integral f maxLen dx x0 xall y = some G ∧ F ≤ G := by
  refine ⟨_, _, C58_spec f maxLen dx hdx x0 xall x hx h0 (hxy.trans h1), C58_spec f maxLen dx hdx x0 xall y hy (h0.trans hxy) h1, ?_⟩
  have hb := floor_bounds dx x hdx h0
  have hc := floor_bounds dx y hdx (h0.trans hxy)
  rw [step_step f dx x hdx _ hb.1 hb.2.le, step_step f dx y hdx _ hc.1 hc.2.le]
  rcases (Nat.floor_le_floor (div_le_div_of_nonneg_right hxy hdx.le)).lt_or_eq with h | h
  · have e := step_grid_mono f dx hdx hf (⌊x / dx⌋₊ + 1) ⌊y / dx⌋₊ h
    rw [step_step f dx ((⌊x / dx⌋₊ + 1 : ℕ) * dx) hdx ⌊x / dx⌋₊ (by push_cast; linarith) (by push_cast; linarith)] at e
    have h2 := hf (((⌊x / dx⌋₊ : ℝ) + 1) * dx) (by positivity)
    have h3 := hf (((⌊y / dx⌋₊ : ℝ) + 1) * dx) (by positivity)
    have h4 : (x - ⌊x / dx⌋₊ * dx) * f (((⌊x / dx⌋₊ : ℝ) + 1) * dx) ≤
        (((⌊x / dx⌋₊ + 1 : ℕ) : ℝ) * dx - ⌊x / dx⌋₊ * dx) * f (((⌊x / dx⌋₊ : ℝ) + 1) * dx) :=
      mul_le_mul_of_nonneg_right (by push_cast; linarith [hb.2]) h2
    have h5 : 0 ≤ (y - ⌊y / dx⌋₊ * dx) * f (((⌊y / dx⌋₊ : ℝ) + 1) * dx) := mul_nonneg (by linarith [hc.1]) h3
    linarith
  · rw [h]
    have h3 := hf (((⌊y / dx⌋₊ : ℝ) + 1) * dx) (by positivity)
    have := mul_le_mul_of_nonneg_right (show x - ⌊y / dx⌋₊ * dx ≤ y - ⌊y / dx⌋₊ * dx by linarith) h3
    linarith

lemma cell_error (f F : ℝ → ℝ) (K dx : ℝ) (hdx : 0 < dx) (hK : 0 ≤ K) (hF : ∀ t, HasDerivAt F (f t) t)
    (hL : ∀ a b, 0 ≤ a → 0 ≤ b → |f a - f b| ≤ K * |a - b|) (m : ℕ) (x : ℝ) (h1 : m * dx ≤ x) (h2 : x ≤ (m + 1) * dx) :
    |(x - m * dx) * f (((m : ℝ) + 1) * dx) - (F x - F (m * dx))| ≤ K * dx * (x - m * dx) := by
  rcases h1.lt_or_eq with h | h
  · obtain ⟨c, hc, hs⟩ := exists_hasDerivAt_eq_slope F f h (fun t _ => (hF t).continuousAt.continuousWithinAt) (fun t _ => hF t)
    have hpos : 0 < x - m * dx := by linarith
    have e : F x - F (m * dx) = f c * (x - m * dx) := by rw [hs]; field_simp
    rw [e, show (x - m * dx) * f (((m : ℝ) + 1) * dx) - f c * (x - m * dx) = (x - m * dx) * (f (((m : ℝ) + 1) * dx) - f c) by ring,
      abs_mul, abs_of_pos hpos]
    have hm0 : (0 : ℝ) ≤ m * dx := by positivity
    have hl := hL (((m : ℝ) + 1) * dx) c (by positivity) (hm0.trans hc.1.le)
    have : |((m : ℝ) + 1) * dx - c| ≤ dx := by rw [abs_le]; constructor <;> nlinarith [hc.1, hc.2]
    have : |f (((m : ℝ) + 1) * dx) - f c| ≤ K * dx := hl.trans (mul_le_mul_of_nonneg_left this hK)
    nlinarith
  · subst h; simp

/-- The integral approximates the true integral: if the function changes at most with rate `K`, the error is at most `K * dx * x`. `F` is the
antiderivative that vanishes at the rotor. -/
theorem C58_accuracy (f F : ℝ → ℝ) (K maxLen dx : ℝ) (hdx : 0 < dx) (hK : 0 ≤ K) (hF : ∀ t, HasDerivAt F (f t) t) (hF0 : F 0 = 0)
    (hL : ∀ a b, 0 ≤ a → 0 ≤ b → |f a - f b| ≤ K * |a - b|) (x0 : ℝ) (xall : List ℝ) (x : ℝ) (hx : x ∈ x0 :: xall) (h0 : 0 ≤ x)
    (h1 : x ≤ maxLen) : ∃ v, integral f maxLen dx x0 xall x = some v ∧ |v - F x| ≤ K * dx * x := by
  refine ⟨_, C58_spec f maxLen dx hdx x0 xall x hx h0 h1, ?_⟩
  have hgrid : ∀ m : ℕ, |stepIntegral f dx (m * dx) - F (m * dx)| ≤ K * dx * (m * dx) := by
    intro m
    induction m with
    | zero => simp [stepIntegral, hF0]
    | succ m ih =>
      rw [step_step f dx ((m + 1 : ℕ) * dx) hdx m (by push_cast; linarith) (by push_cast; linarith)]
      have hc := cell_error f F K dx hdx hK hF hL m ((m + 1 : ℕ) * dx) (by push_cast; linarith) (by push_cast; linarith)
      refine (le_trans (le_of_eq ?_) (abs_add_le _ _)).trans ((add_le_add ih hc).trans (le_of_eq ?_))
      · congr 1; ring
      · ring
  have hb := floor_bounds dx x hdx h0
  rw [step_step f dx x hdx _ hb.1 hb.2.le]
  have hc := cell_error f F K dx hdx hK hF hL _ x hb.1 hb.2.le
  refine (le_trans (le_of_eq ?_) (abs_add_le _ _)).trans ((add_le_add (hgrid ⌊x / dx⌋₊) hc).trans (le_of_eq ?_))
  · congr 1; ring
  · ring

/-- Upstream of the rotor the integral is zero, if some point of the chunk is downstream. -/
theorem C58_upstream (f : ℝ → ℝ) (maxLen dx : ℝ) (hdx : 0 < dx) (hm : 0 ≤ maxLen) (x0 : ℝ) (xall : List ℝ) (x y : ℝ) (hy : y ∈ x0 :: xall)
    (hy0 : 0 ≤ y) (h0 : x < 0) : integral f maxLen dx x0 xall x = some 0 := by
  obtain ⟨a, -, -⟩ := nSteps_nonneg (min (nanmax x0 xall) maxLen) dx hdx (le_min (hy0.trans (nanmax_ge x0 xall y hy)) hm)
  unfold integral
  simp only [if_neg (not_lt.2 a), interp, if_pos (Or.inl h0)]

/-- Finding: if all points of the chunk are upstream by at least one step, the calculation raises a `ValueError` (negative dimension). -/
theorem C58_all_upstream_raises (f : ℝ → ℝ) (maxLen dx : ℝ) (hdx : 0 < dx) (x0 : ℝ) (xall : List ℝ) (h : ∀ x ∈ x0 :: xall, x ≤ -dx) (x : ℝ) :
    integral f maxLen dx x0 xall x = none := by
  have hmax := h _ (nanmax_mem x0 xall)
  set X := min (nanmax x0 xall) maxLen with hX
  have hXle : X ≤ -dx := (min_le_left _ _).trans hmax
  have hq : X / dx ≤ -1 := by rw [div_le_iff₀ hdx]; linarith
  have hce : ⌈X / dx⌉ ≤ -1 := Int.ceil_le.2 (by push_cast; exact hq)
  have hns : nSteps X dx = ⌈X / dx⌉ := by
    have hle : X / dx ≤ ⌈X / dx⌉ := Int.le_ceil _
    rw [div_le_iff₀ hdx] at hle
    unfold nSteps
    simp only [sub_zero, zero_add, pyInt, if_neg (show ¬ 0 ≤ X / dx by linarith), if_neg (not_lt.2 hle)]
  unfold integral
  simp only
  rw [← hX, hns, if_pos (by omega)]

/-- The property that fails: beyond the maximal length (by more than one step) the integral is zero, although it grows up to there. -/
theorem C58_beyond (f : ℝ → ℝ) (maxLen dx : ℝ) (hdx : 0 < dx) (hm : 0 ≤ maxLen) (x0 : ℝ) (xall : List ℝ) (x : ℝ) (hx : x ∈ x0 :: xall)
    (h : maxLen + dx ≤ x) : integral f maxLen dx x0 xall x = some 0 := by
  have hmn : min (nanmax x0 xall) maxLen = maxLen := min_eq_right (by linarith [nanmax_ge x0 xall x hx])
  obtain ⟨a, -, c⟩ := nSteps_nonneg maxLen dx hdx hm
  unfold integral
  simp only [hmn, if_neg (not_lt.2 a), interp]
  have : (((nSteps maxLen dx).toNat : ℤ) : ℝ) = (nSteps maxLen dx : ℝ) := by rw [Int.toNat_of_nonneg a]
  rw [Int.cast_natCast] at this
  rw [if_pos (Or.inr (by rw [this]; linarith))]

/-! ### The wake model TurbOParkIX -/

/-- Within the maximal length, the wake of `TurbOParkWakeIX` has the near wake width plus `k` times the integral of the turbulence intensity:
it widens and weakens with the distance. -/
theorem C58_turbo_decay (a : ℝ → ℝ) (hm : ∀ c c', 0 ≤ c → c ≤ c' → a c ≤ a c') (sb D k ct maxLen dx : ℝ) (hsb : 0 < sb) (hD : 0 < D) (hk : 0 ≤ k)
    (hct : 1e-8 < ct) (ha0 : 0 ≤ a ct) (ha1 : a ct < 1 / 2) (hdx : 0 < dx) (f : ℝ → ℝ) (hf : ∀ t, 0 < t → 0 ≤ f t) (x0 : ℝ) (xall : List ℝ) (x y : ℝ)
    (hx : x ∈ x0 :: xall) (hy : y ∈ x0 :: xall) (h0 : 1e-8 < x) (hxy : x ≤ y) (h1 : y ≤ maxLen) :
    ∃ A s A' s', turboIX a sb D k ct maxLen dx f x0 xall true x = some (some (A, s)) ∧
      turboIX a sb D k ct maxLen dx f x0 xall true y = some (some (A', s')) ∧ sb * D ≤ s ∧ s ≤ s' ∧ A ≤ A' := by
  have hx0 : 0 ≤ x := by linarith
  obtain ⟨F, G, hF, hG, hFG⟩ := C58_monotone f maxLen dx hdx hf x0 xall x y hx hy hx0 hxy h1
  have hF0 : 0 ≤ F := by
    rw [C58_spec f maxLen dx hdx x0 xall x hx hx0 (hxy.trans h1)] at hF
    rw [← Option.some.inj hF]
    have := step_mono (fun _ => 0) f dx hdx hf x hx0
    refine le_trans (le_of_eq ?_) this
    simp [stepIntegral]
  have hb := Foxes.Props.WakeModels.sqrt_beta_ge_one ha0 ha1
  refine ⟨_, _, _, _, by simp only [turboIX, if_true, hF, if_pos (And.intro h0 hct)]; rfl,
    by simp only [turboIX, if_true, hG, if_pos (And.intro (h0.trans_le hxy) hct)]; rfl, ?_, ?_, ?_⟩
  · unfold ixSigma
    simp only
    have h2 : sb ≤ sb * √(beta (a ct)) := by nlinarith
    have h3 := mul_le_mul_of_nonneg_left h2 hD.le
    have h4 := mul_nonneg hk hF0
    linarith
  · unfold ixSigma
    simp only
    have := mul_le_mul_of_nonneg_left hFG hk
    linarith
  · refine Foxes.Props.WakeModels.amplitude_mono a hm D _ _ ct hD (by linarith) ?_ ?_
    · unfold ixSigma
      simp only
      have h2 : 0 < sb * √(beta (a ct)) := by nlinarith
      have h3 := mul_pos hD h2
      have h4 := mul_nonneg hk hF0
      linarith
    · unfold ixSigma
      simp only
      have := mul_le_mul_of_nonneg_left hFG hk
      linarith

/-- In uniform turbulence without wakes, `TurbOParkWakeIX` is the Bastankhah model with wake growth `k` times the turbulence intensity. -/
theorem C58_turbo_uniform (a : ℝ → ℝ) (sb D k ct maxLen dx ti : ℝ) (hct : 1e-8 < ct) (hdx : 0 < dx) (x0 : ℝ) (xall : List ℝ) (x : ℝ)
    (hx : x ∈ x0 :: xall) (h0 : 1e-8 < x) (h1 : x ≤ maxLen) (rs : List ℝ) :
    ∃ A s, turboIX a sb D k ct maxLen dx (fun _ => ti) x0 xall true x = some (some (A, s)) ∧
      bastankhah a sb D (k * ti) x ct rs = some (rs.map (gauss A s)) := by
  have e : ixSigma a sb D k ct (ti * x) = bastSigma a sb D (k * ti) x ct := by unfold ixSigma bastSigma; ring
  refine ⟨_, _, by simp only [turboIX, if_true, C58_constant ti maxLen dx hdx x0 xall x hx (by linarith) h1, if_pos (And.intro h0 hct), e]; rfl, ?_⟩
  simp only [bastankhah, if_pos (And.intro h0 hct)]

/-- Consequence of `C58_beyond`: behind the end of the maximal length the wake of `TurbOParkWakeIX` has again the width of the near wake. -/
theorem C58_turbo_beyond (a : ℝ → ℝ) (sb D k ct maxLen dx : ℝ) (hct : 1e-8 < ct) (hdx : 0 < dx) (hm : 0 ≤ maxLen) (f : ℝ → ℝ) (x0 : ℝ)
    (xall : List ℝ) (x : ℝ) (hx : x ∈ x0 :: xall) (h0 : 1e-8 < x) (h : maxLen + dx ≤ x) :
    turboIX a sb D k ct maxLen dx f x0 xall true x =
      some (some (amplitude a D (sb * √(beta (a ct)) * D) ct, sb * √(beta (a ct)) * D)) := by
  have e : ixSigma a sb D k ct 0 = sb * √(beta (a ct)) * D := by unfold ixSigma; ring
  simp only [turboIX, if_true, C58_beyond f maxLen dx hdx hm x0 xall x hx h, if_pos (And.intro h0 hct), e]

/-- If no target of the chunk is selected there is no wake, and nothing is integrated. -/
theorem C58_turbo_unselected (a : ℝ → ℝ) (sb D k ct maxLen dx : ℝ) (f : ℝ → ℝ) (x0 : ℝ) (xall : List ℝ) (x : ℝ) :
    turboIX a sb D k ct maxLen dx f x0 xall false x = some none := rfl

/-- The chunk of a selected target never raises, and a target is selected if and only if it is downstream and the thrust is positive. -/
theorem C58_turbo_selected (a : ℝ → ℝ) (sb D k ct maxLen dx : ℝ) (hdx : 0 < dx) (hm : 0 ≤ maxLen) (f : ℝ → ℝ) (x0 : ℝ) (xall : List ℝ) (y : ℝ)
    (hy : y ∈ x0 :: xall) (hy0 : 1e-8 < y) (x : ℝ) :
    ∃ r, turboIX a sb D k ct maxLen dx f x0 xall true x = some r ∧ (r ≠ none ↔ 1e-8 < x ∧ 1e-8 < ct) := by
  obtain ⟨n0, -, -⟩ := nSteps_nonneg (min (nanmax x0 xall) maxLen) dx hdx
    (le_min (le_trans (by linarith) (nanmax_ge x0 xall y hy)) hm)
  have hi : ∃ v, integral f maxLen dx x0 xall x = some v := by
    unfold integral; simp only [if_neg (not_lt.2 n0)]; exact ⟨_, rfl⟩
  obtain ⟨v, hv⟩ := hi
  by_cases h : 1e-8 < x ∧ 1e-8 < ct
  · exact ⟨_, by simp only [turboIX, if_true, hv, if_pos h]; rfl, by simp [h]⟩
  · exact ⟨_, by simp only [turboIX, if_true, hv, if_neg h]; rfl, by simp [h]⟩

/-! ## Non-vacuity -/

/-- a linear function, steps of 10 m: 200 plus half a step in excess for each of the steps -/
example : integral (fun t => t) 1000 10 (-5) [25, 20, 5000] 20 = some 300 := by
  rw [C58_spec (fun t => t) 1000 10 (by norm_num) (-5) [25, 20, 5000] 20 (by simp) (by norm_num) (by norm_num)]
  have : ⌊(20 : ℝ) / 10⌋₊ = 2 := by rw [Nat.floor_eq_iff (by norm_num)]; norm_num
  simp only [stepIntegral, this, Finset.sum_range_succ, Finset.sum_range_zero]
  norm_num

example : integral (fun _ => 0.08) 1000 10 (-5) [25, 20, 5000] 5000 = some 0 :=
  C58_beyond _ 1000 10 (by norm_num) (by norm_num) (-5) _ 5000 (by simp) (by norm_num)

example : ∃ v, integral (fun t => t) 1000 10 0 [33] 33 = some v ∧ |v - 33 ^ 2 / 2| ≤ 1 * 10 * 33 := by
  refine C58_accuracy (fun t => t) (fun t => t ^ 2 / 2) 1 1000 10 (by norm_num) (by norm_num) (fun t => ?_) (by norm_num) ?_ 0 [33] 33 (by simp)
    (by norm_num) (by norm_num)
  · have := (hasDerivAt_pow 2 t).div_const 2
    simpa using this
  · intro a b _ _; simp

example : integral (fun t => t) 1000 10 (-25) [-35] (-35) = none :=
  C58_all_upstream_raises _ 1000 10 (by norm_num) _ _ (by intro x hx; simp at hx; rcases hx with rfl | rfl <;> norm_num) _

example : ∃ A s A' s', turboIX (fun c => c / 4) 0.25 100 0.5 0.8 20000 10 (fun _ => 0.08) 300 [900] true 300 = some (some (A, s)) ∧
    turboIX (fun c => c / 4) 0.25 100 0.5 0.8 20000 10 (fun _ => 0.08) 300 [900] true 900 = some (some (A', s')) ∧ 0.25 * 100 ≤ s ∧ s ≤ s' ∧ A ≤ A' :=
  C58_turbo_decay (fun c => c / 4) (fun c c2 _ h => by linarith) 0.25 100 0.5 0.8 20000 10 (by norm_num) (by norm_num) (by norm_num)
    (by norm_num) (by norm_num) (by norm_num) (by norm_num) _ (fun _ _ => by norm_num) 300 [900] 300 900 (by simp) (by simp) (by norm_num)
    (by norm_num) (by norm_num)

end Foxes.Props.CentrelineInt
