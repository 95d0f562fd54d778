import Verif.Model.WakeModels
import Mathlib.Tactic.Linarith
import Mathlib.Tactic.Positivity
import Mathlib.Tactic.NormNum
import Mathlib.Tactic.Ring
import Mathlib.Tactic.FieldSimp
import Mathlib.Tactic.GCongr
/-
C26 (axial induction), C27 (single wake models), C47 (TI wake models).
-/
namespace Foxes.Props.WakeModels
open Foxes.WakeModels

/-! ### C26 -/

/-- **C26 (Betz, range).** For every thrust coefficient `ct ≥ 0` and cut `0 ≤ ct_max ≤ 1` the root is real and the induction factor
lies in `[0, 1/2]`; it is zero at `ct = 0`, and smaller than 1/2 for the default cut. -/
theorem C26_betz_range (ctMax ct : ℝ) (hm : 0 ≤ ctMax) (hm1 : ctMax ≤ 1) (hct : 0 ≤ ct) :
    0 ≤ 1 - min ct ctMax ∧ 0 ≤ betz ctMax ct ∧ betz ctMax ct ≤ 1 / 2 ∧ (ctMax < 1 → betz ctMax ct < 1 / 2) ∧
    betz ctMax 0 = 0 := by
  have h0 : 0 ≤ 1 - min ct ctMax := by have := min_le_right ct ctMax; linarith
  have h1 : √(1 - min ct ctMax) ≤ 1 := by
    rw [Real.sqrt_le_one]
    have : 0 ≤ min ct ctMax := le_min hct hm
    linarith
  have h2 := Real.sqrt_nonneg (1 - min ct ctMax)
  refine ⟨h0, ?_, ?_, ?_, ?_⟩
  · unfold betz; linarith
  · unfold betz; linarith
  · intro h
    have : 0 < √(1 - min ct ctMax) := Real.sqrt_pos.2 (by have := min_le_right ct ctMax; linarith)
    unfold betz; linarith
  · unfold betz; rw [min_eq_left hm]; simp

/-- **C26 (Betz, momentum theory).** Up to the cut the induction factor solves `ct = 4 a (1 - a)`; above, it stays at its value at the
cut. -/
theorem C26_betz_solves (ctMax ct : ℝ) (hm1 : ctMax ≤ 1) :
    (ct ≤ ctMax → 4 * betz ctMax ct * (1 - betz ctMax ct) = ct) ∧ (ctMax ≤ ct → betz ctMax ct = betz ctMax ctMax) := by
  constructor
  · intro h
    unfold betz
    rw [min_eq_left h]
    have : √(1 - ct) * √(1 - ct) = 1 - ct := Real.mul_self_sqrt (by linarith)
    nlinarith
  · intro h; unfold betz; rw [min_eq_right h, min_self]

/-- **C26 (Betz, inverse).** Conversely the induction factor of `ct = 4 a (1 - a)` with `a ≤ 1/2` is `a`. -/
theorem C26_betz_inverse (ctMax a : ℝ) (ha : a ≤ 1 / 2) (h : 4 * a * (1 - a) ≤ ctMax) : betz ctMax (4 * a * (1 - a)) = a := by
  unfold betz
  rw [min_eq_left h]
  have : 1 - 4 * a * (1 - a) = (1 - 2 * a) ^ 2 := by ring
  rw [this, Real.sqrt_sq (by linarith)]
  ring

/-- **C26 (monotone).** More thrust never means less induction (Betz: for every real ct; Madsen: for `ct ≥ 0`, non-negative
coefficients). -/
theorem C26_monotone (ctMax k1 k2 k3 : ℝ) (h1 : 0 ≤ k1) (h2 : 0 ≤ k2) (h3 : 0 ≤ k3) (c c' : ℝ) (hc : c ≤ c') :
    betz ctMax c ≤ betz ctMax c' ∧ (0 ≤ c → madsen k1 k2 k3 c ≤ madsen k1 k2 k3 c') := by
  constructor
  · unfold betz
    have : √(1 - min c' ctMax) ≤ √(1 - min c ctMax) := Real.sqrt_le_sqrt (by have := min_le_min_right ctMax hc; linarith)
    linarith
  · intro h0
    unfold madsen
    gcongr

/-- **C26 (Madsen, range).** Zero at zero, non-negative for `ct ≥ 0`, and with the default coefficients below 1/2 for `ct ≤ 1.15`. -/
theorem C26_madsen_range (ct : ℝ) (h0 : 0 ≤ ct) :
    madsenDefault 0 = 0 ∧ 0 ≤ madsenDefault ct ∧ (ct ≤ 1.15 → madsenDefault ct < 1 / 2) := by
  refine ⟨by simp [madsenDefault, madsen], by unfold madsenDefault madsen; positivity, ?_⟩
  intro h
  have := (C26_monotone 1 0.2460 0.0586 0.0883 (by norm_num) (by norm_num) (by norm_num) ct 1.15 h).2 h0
  refine lt_of_le_of_lt this ?_
  unfold madsen; norm_num

/-- Madsen's polynomial with the default coefficients exceeds 1/2 for large thrust coefficients, so Gaussian models get a negative
`beta` (and `sqrt` of it is not a number) for `ct ≥ 1.2`; `C26_madsen_range` is sharp up to the digits given. -/
theorem C26_madsen_large_ct : 1 / 2 < madsenDefault 1.2 ∧ beta (madsenDefault 1.2) < 0 := by
  have h : 1 / 2 < madsenDefault 1.2 := by unfold madsenDefault madsen; norm_num
  refine ⟨h, ?_⟩
  unfold beta
  apply div_neg_of_pos_of_neg
  · unfold madsenDefault madsen; norm_num
  · linarith

/-! ### C27: top hat wakes -/

/-- value of a wake at a point: zero if the target is not selected -/
noncomputable def valueAt (o : Option (List ℝ)) (i : Nat) : ℝ := ((o.getD [])[i]?).getD 0

/-- **C27 (top hat).** At every point of a target the top hat wake is the centreline value if the target is downstream, the thrust
positive and the point inside the wake radius, otherwise zero: independent of the target's other points. -/
theorem C27_top_hat_point (wakeR : ℝ → ℝ → ℝ) (centre : ℝ → ℝ → ℝ → ℝ) (x ct : ℝ) (rs : List ℝ) (i : Nat) (hi : i < rs.length) :
    valueAt (topHat wakeR centre x ct rs) i =
      if 1e-8 < x ∧ 1e-8 < ct ∧ rs[i] < wakeR x ct then centre x (wakeR x ct) ct else 0 := by
  by_cases h : 1e-8 < x ∧ 1e-8 < ct ∧ ∃ r ∈ rs, r < wakeR x ct
  · unfold topHat
    simp only [h, and_self, if_true, valueAt, Option.getD_some, List.getElem?_map, List.getElem?_eq_getElem hi,
      Option.map_some, true_and]
  · have hn : topHat wakeR centre x ct rs = none := by unfold topHat; simp only [h, if_false]
    rw [hn, if_neg (fun ⟨a, b, c⟩ => h ⟨a, b, rs[i], List.getElem_mem hi, c⟩)]
    rfl

theorem jensen_centre_bounds {a : ℝ} {D wr : ℝ} (hD : 0 < D) (hw : D / 2 ≤ wr) (h0 : 0 ≤ a) (h1 : a ≤ 1 / 2) :
    -1 ≤ -((D / 2 / wr) ^ 2) * (2 * a) ∧ -((D / 2 / wr) ^ 2) * (2 * a) ≤ 0 := by
  have hwr : 0 < wr := by linarith
  have hq0 : 0 ≤ D / 2 / wr := by positivity
  have hq1 : D / 2 / wr ≤ 1 := by rw [div_le_one hwr]; exact hw
  have hsq : (D / 2 / wr) ^ 2 ≤ 1 := by nlinarith
  have hsq0 : 0 ≤ (D / 2 / wr) ^ 2 := by positivity
  constructor <;> nlinarith

/-- **C27 (Jensen, bounds).** With an induction factor in `[0, 1/2]`, positive diameter and non-negative wake expansion, the deficit at
every point lies in `[-1, 0]`; it is zero at or upstream of the rotor, for zero thrust, and outside the wake radius. -/
theorem C27_jensen_bounds (a : ℝ → ℝ) (D k x ct : ℝ) (rs : List ℝ) (i : Nat) (hi : i < rs.length) (hD : 0 < D) (hk : 0 ≤ k)
    (ha : 0 ≤ a ct ∧ a ct ≤ 1 / 2) :
    (-1 ≤ valueAt (jensen a D k x ct rs) i ∧ valueAt (jensen a D k x ct rs) i ≤ 0) ∧
    (x ≤ 0 ∨ ct ≤ 0 ∨ D / 2 + k * x ≤ rs[i] → valueAt (jensen a D k x ct rs) i = 0) := by
  unfold jensen
  rw [C27_top_hat_point _ _ x ct rs i hi]
  constructor
  · split
    · rename_i h
      have hx : 0 < x := lt_trans (by norm_num) h.1
      exact jensen_centre_bounds hD (by unfold jensenRadius; nlinarith) ha.1 ha.2
    · constructor <;> norm_num
  · intro h
    rw [if_neg]
    rintro ⟨h1, h2, h3⟩
    rcases h with h | h | h
    · exact absurd (lt_of_lt_of_le h1 h) (by norm_num)
    · exact absurd (lt_of_lt_of_le h2 h) (by norm_num)
    · unfold jensenRadius at h3; linarith

/-- **C27 (Jensen, decay).** Further downstream (inside the wake at both places) the deficit is never larger. -/
theorem C27_jensen_decay (a : ℝ → ℝ) (D k x x' ct r : ℝ) (hD : 0 < D) (hk : 0 ≤ k) (ha : 0 ≤ a ct) (hx : 1e-8 < x) (hxx : x ≤ x')
    (hr : r < D / 2 + k * x) : valueAt (jensen a D k x ct [r]) 0 ≤ valueAt (jensen a D k x' ct [r]) 0 := by
  unfold jensen
  rw [C27_top_hat_point _ _ x ct [r] 0 (by simp), C27_top_hat_point _ _ x' ct [r] 0 (by simp)]
  have h1 : jensenRadius D k x ≤ jensenRadius D k x' := by unfold jensenRadius; nlinarith
  have hpos : 0 < jensenRadius D k x := by unfold jensenRadius; have : (0 : ℝ) < x := lt_trans (by norm_num) hx; positivity
  by_cases hct : 1e-8 < ct
  · rw [if_pos ⟨hx, hct, hr⟩, if_pos ⟨lt_of_lt_of_le hx hxx, hct, lt_of_lt_of_le hr h1⟩]
    unfold jensenCentre
    have : D / 2 / jensenRadius D k x' ≤ D / 2 / jensenRadius D k x := by gcongr
    have h0 : 0 ≤ D / 2 / jensenRadius D k x' := by have := lt_of_lt_of_le hpos h1; positivity
    have : (D / 2 / jensenRadius D k x') ^ 2 ≤ (D / 2 / jensenRadius D k x) ^ 2 := by gcongr
    nlinarith
  · rw [if_neg (fun h => hct h.2.1), if_neg (fun h => hct h.2.1)]

/-- **C27 (Jensen, momentum).** The product of the deficit and the squared wake radius does not change downstream (the wake spreads but
keeps its total deficit). -/
theorem C27_jensen_conserves (a : ℝ → ℝ) (D k x ct : ℝ) (hr : 0 < jensenRadius D k x) :
    jensenCentre a D (jensenRadius D k x) ct * jensenRadius D k x ^ 2 = -(D / 2) ^ 2 * (2 * a ct) := by
  unfold jensenCentre
  field_simp

example : valueAt (jensen (betz 0.99999) 100 0.05 1000 0.75 [20, 99, 101]) 2 = 0 ∧
    valueAt (jensen (betz 0.99999) 100 0.05 1000 0.75 [20, 99, 101]) 0 = -(1 / 8) := by
  have hb : betz 0.99999 0.75 = 1 / 4 := by
    have := C26_betz_inverse 0.99999 (1 / 4) (by norm_num) (by norm_num)
    norm_num at this ⊢
    exact this
  constructor
  · unfold jensen
    rw [C27_top_hat_point _ _ _ _ _ _ (by simp)]
    norm_num [jensenRadius]
  · unfold jensen
    rw [C27_top_hat_point _ _ _ _ _ _ (by simp)]
    simp only [jensenCentre, hb]
    norm_num [jensenRadius]

/-! ### C27: Gaussian wakes -/

theorem amplitude_bounds (a : ℝ → ℝ) (D sigma ct : ℝ) (ha : 0 ≤ a (ct / (8 * (sigma / D) ^ 2))) :
    -1 ≤ amplitude a D sigma ct ∧ amplitude a D sigma ct ≤ 0 := by
  unfold amplitude
  exact ⟨le_max_right _ _, max_le (by linarith) (by norm_num)⟩

theorem gauss_bounds (A s r : ℝ) (h : -1 ≤ A ∧ A ≤ 0) : -1 ≤ gauss A s r ∧ gauss A s r ≤ 0 := by
  unfold gauss
  have h0 : 0 ≤ Real.exp (-0.5 * (r / s) ^ 2) := (Real.exp_pos _).le
  have h1 : Real.exp (-0.5 * (r / s) ^ 2) ≤ 1 := by
    rw [Real.exp_le_one_iff]; have : 0 ≤ (r / s) ^ 2 := sq_nonneg _; linarith
  constructor <;> nlinarith [h.1, h.2]

/-- **C27 (Gaussian wakes, bounds).** For any induction model that is non-negative on non-negative thrust, the deficits of the
Bastankhah 2014 and TurbOPark wakes lie in `[-1, 0]` at every point, and no point is affected upstream or for zero thrust. (Also
where parameters make the width meaningless: the amplitude is clipped.) -/
theorem C27_gauss_bounds (a : ℝ → ℝ) (ha : ∀ c, 0 ≤ c → 0 ≤ a c) (sb c1 c2 D k ati x ct : ℝ) (rs : List ℝ) (i : Nat) :
    (-1 ≤ valueAt (bastankhah a sb D k x ct rs) i ∧ valueAt (bastankhah a sb D k x ct rs) i ≤ 0) ∧
    (-1 ≤ valueAt (turbopark a sb c1 c2 D k ati x ct rs) i ∧ valueAt (turbopark a sb c1 c2 D k ati x ct rs) i ≤ 0) ∧
    (x ≤ 0 ∨ ct ≤ 0 → bastankhah a sb D k x ct rs = none ∧ turbopark a sb c1 c2 D k ati x ct rs = none) := by
  have key : ∀ sigma, 0 ≤ ct →
      -1 ≤ ((rs.map (gauss (amplitude a D sigma ct) sigma))[i]?).getD 0 ∧
      ((rs.map (gauss (amplitude a D sigma ct) sigma))[i]?).getD 0 ≤ 0 := by
    intro sigma hct
    rw [List.getElem?_map]
    cases rs[i]? with
    | none => constructor <;> norm_num
    | some r =>
      exact gauss_bounds _ _ _ (amplitude_bounds a D sigma ct (ha _ (by positivity)))
  refine ⟨?_, ?_, ?_⟩
  · unfold bastankhah
    split
    · rename_i h; exact key _ (le_trans (by norm_num) h.2.le)
    · constructor <;> norm_num [valueAt]
  · unfold turbopark
    split
    · rename_i h; exact key _ (le_trans (by norm_num) h.2.le)
    · constructor <;> norm_num [valueAt]
  · intro h
    have : ¬ (1e-8 < x ∧ 1e-8 < ct) := by
      rintro ⟨h1, h2⟩
      rcases h with h | h
      · exact absurd (lt_of_lt_of_le h1 h) (by norm_num)
      · exact absurd (lt_of_lt_of_le h2 h) (by norm_num)
    simp [bastankhah, turbopark, this]

/-- **C27 (Gaussian wakes, shape).** At a given distance the deficit is largest on the centreline and falls with the radius. -/
theorem C27_gauss_radial (A s r r' : ℝ) (hA : A ≤ 0) (h0 : 0 ≤ r) (h : r ≤ r') : gauss A s r ≤ gauss A s r' ∧ A ≤ gauss A s r := by
  unfold gauss
  have h1 : (r / s) ^ 2 ≤ (r' / s) ^ 2 := by
    rw [div_pow, div_pow]
    gcongr
  have e1 : Real.exp (-0.5 * (r' / s) ^ 2) ≤ Real.exp (-0.5 * (r / s) ^ 2) := by
    rw [Real.exp_le_exp]; linarith
  have e2 : Real.exp (-0.5 * (r / s) ^ 2) ≤ 1 := by
    rw [Real.exp_le_one_iff]; have : 0 ≤ (r / s) ^ 2 := sq_nonneg _; linarith
  constructor <;> nlinarith

theorem beta_ge_one {a : ℝ} (h0 : 0 ≤ a) (h1 : a < 1 / 2) : 1 ≤ beta a := by
  unfold beta
  rw [le_div_iff₀ (by linarith)]
  linarith

theorem sqrt_beta_ge_one {a : ℝ} (h0 : 0 ≤ a) (h1 : a < 1 / 2) : 1 ≤ √(beta a) := by
  rw [Real.one_le_sqrt]; exact beta_ge_one h0 h1

/-- **C27 (Bastankhah, width).** The wake width is at least `sbeta_factor * D` and grows downstream (induction factor below 1/2). -/
theorem C27_bastankhah_width (a : ℝ → ℝ) (sb D k x x' ct : ℝ) (hs : 0 ≤ sb) (hD : 0 < D) (hk : 0 ≤ k)
    (ha : 0 ≤ a ct ∧ a ct < 1 / 2) (hx : 0 ≤ x) (hxx : x ≤ x') :
    sb * D ≤ bastSigma a sb D k x ct ∧ bastSigma a sb D k x ct ≤ bastSigma a sb D k x' ct := by
  have h1 := sqrt_beta_ge_one ha.1 ha.2
  unfold bastSigma
  constructor
  · have h2 : sb * D ≤ sb * √(beta (a ct)) * D := by
      have : sb * 1 ≤ sb * √(beta (a ct)) := by gcongr
      nlinarith
    have h3 : 0 ≤ k * x := mul_nonneg hk hx
    linarith
  · have : k * x ≤ k * x' := by gcongr
    linarith

theorem amplitude_mono (a : ℝ → ℝ) (hm : ∀ c c', 0 ≤ c → c ≤ c' → a c ≤ a c') (D s s' ct : ℝ) (hD : 0 < D) (hct : 0 ≤ ct)
    (hs : 0 < s) (hss : s ≤ s') : amplitude a D s ct ≤ amplitude a D s' ct := by
  unfold amplitude
  have h1 : ct / (8 * (s' / D) ^ 2) ≤ ct / (8 * (s / D) ^ 2) := by
    gcongr
  have h0 : 0 ≤ ct / (8 * (s' / D) ^ 2) := by positivity
  have := hm _ _ h0 h1
  exact max_le_max (by linarith) (le_refl _)

/-- **C27 (Bastankhah, decay).** On the centreline the deficit never grows downstream. -/
theorem C27_bastankhah_centre_decay (a : ℝ → ℝ) (hm : ∀ c c', 0 ≤ c → c ≤ c' → a c ≤ a c') (sb D k x x' ct : ℝ)
    (hs : 0 < sb) (hD : 0 < D) (hk : 0 ≤ k) (ha : 0 ≤ a ct ∧ a ct < 1 / 2) (hx : 1e-8 < x) (hxx : x ≤ x') (hct : 1e-8 < ct) :
    valueAt (bastankhah a sb D k x ct [0]) 0 ≤ valueAt (bastankhah a sb D k x' ct [0]) 0 := by
  have hx0 : (0 : ℝ) ≤ x := le_trans (by norm_num) hx.le
  have hct0 : (0 : ℝ) ≤ ct := le_trans (by norm_num) hct.le
  obtain ⟨w1, w2⟩ := C27_bastankhah_width a sb D k x x' ct hs.le hD hk ha hx0 hxx
  have hpos : 0 < bastSigma a sb D k x ct := lt_of_lt_of_le (by positivity) w1
  have := amplitude_mono a hm D _ _ ct hD hct0 hpos w2
  unfold bastankhah
  rw [if_pos ⟨hx, hct⟩, if_pos ⟨lt_of_lt_of_le hx hxx, hct⟩]
  simpa [valueAt, gauss] using this

/-- **C27 (TurbOPark, width).** With positive ambient turbulence the wake width is at least `sbeta_factor * D` and never shrinks
downstream. -/
theorem C27_turbopark_width (a : ℝ → ℝ) (sb c1 c2 D k ati x x' ct : ℝ) (hs : 0 ≤ sb) (hD : 0 < D) (hk : 0 ≤ k) (hti : 0 < ati)
    (hc1 : 0 < c1) (hc2 : 0 < c2) (hct : 0 < ct) (ha : 0 ≤ a ct ∧ a ct < 1 / 2) (hx : 0 ≤ x) (hxx : x ≤ x') :
    sb * D ≤ turboSigma a sb c1 c2 D k ati x ct ∧
    turboSigma a sb c1 c2 D k ati x ct ≤ turboSigma a sb c1 c2 D k ati x' ct := by
  have hal : 0 < c1 * ati := by positivity
  have hbt : 0 < c2 * ati / √ct := by have := Real.sqrt_pos.2 hct; positivity
  -- the function of y = alpha + beta x / D in the brackets
  let g : ℝ → ℝ := fun y => √(y ^ 2 + 1) - √(1 + (c1 * ati) ^ 2)
      - Real.log ((√(y ^ 2 + 1) + 1) * (c1 * ati) / ((√(1 + (c1 * ati) ^ 2) + 1) * y))
  have hmono : ∀ y y', 0 < y → y ≤ y' → g y ≤ g y' := by
    intro y y' hy hyy
    have hy' : 0 < y' := lt_of_lt_of_le hy hyy
    have h1 : √(y ^ 2 + 1) ≤ √(y' ^ 2 + 1) := by
      apply Real.sqrt_le_sqrt
      gcongr
    have hS : 0 < √(y ^ 2 + 1) := Real.sqrt_pos.2 (by positivity)
    have hS' : 0 < √(y' ^ 2 + 1) := Real.sqrt_pos.2 (by positivity)
    have hA : 0 < √(1 + (c1 * ati) ^ 2) := Real.sqrt_pos.2 (by positivity)
    -- (S' + 1)/y' ≤ (S + 1)/y
    have h2 : √(y' ^ 2 + 1) * y ≤ √(y ^ 2 + 1) * y' := by
      apply le_of_sq_le_sq _ (by positivity)
      rw [mul_pow, mul_pow, Real.sq_sqrt (by positivity), Real.sq_sqrt (by positivity)]
      nlinarith
    have h3 : (√(y' ^ 2 + 1) + 1) * (c1 * ati) / ((√(1 + (c1 * ati) ^ 2) + 1) * y') ≤
        (√(y ^ 2 + 1) + 1) * (c1 * ati) / ((√(1 + (c1 * ati) ^ 2) + 1) * y) := by
      rw [div_le_div_iff₀ (by positivity) (by positivity)]
      have : (√(y' ^ 2 + 1) + 1) * y ≤ (√(y ^ 2 + 1) + 1) * y' := by nlinarith
      have hc : 0 ≤ (c1 * ati) * (√(1 + (c1 * ati) ^ 2) + 1) := by positivity
      nlinarith [mul_le_mul_of_nonneg_left this hc]
    have h4 := Real.log_le_log (by positivity) h3
    simp only [g]
    linarith
  have hg0 : g (c1 * ati) = 0 := by
    simp only [g]
    have : (c1 * ati) ^ 2 + 1 = 1 + (c1 * ati) ^ 2 := by ring
    rw [this]
    have hA : 0 < √(1 + (c1 * ati) ^ 2) := Real.sqrt_pos.2 (by positivity)
    rw [div_self (by positivity), Real.log_one]
    ring
  have hsig : ∀ x, turboSigma a sb c1 c2 D k ati x ct =
      D * (sb * √(beta (a ct)) + k / (c2 * ati / √ct) * g (c1 * ati + c2 * ati / √ct * x / D)) := fun x => rfl
  have hy : c1 * ati ≤ c1 * ati + c2 * ati / √ct * x / D := by
    have : 0 ≤ c2 * ati / √ct * x / D := by positivity
    linarith
  have hyy : c1 * ati + c2 * ati / √ct * x / D ≤ c1 * ati + c2 * ati / √ct * x' / D := by
    gcongr
  have hg1 : 0 ≤ g (c1 * ati + c2 * ati / √ct * x / D) := by
    rw [← hg0]; exact hmono _ _ hal hy
  have hkb : 0 ≤ k / (c2 * ati / √ct) := by positivity
  have h1 := sqrt_beta_ge_one ha.1 ha.2
  rw [hsig, hsig]
  constructor
  · have h2 : sb ≤ sb * √(beta (a ct)) := by nlinarith
    have h3 := mul_nonneg hkb hg1
    nlinarith
  · have := hmono _ _ (lt_of_lt_of_le hal hy) hyy
    gcongr

/-! ### C47: TI wake models -/

/-- default-like parameters: positive factors, `e3` negative -/
structure CHok (p : CH) : Prop where
  near : 0 < p.aNear
  far : 0 < p.aFar
  e3 : p.e3 < 0

/-- **C47 (Crespo-Hernandez, continuity).** At the end of the near wake the far wake formula gives exactly the near wake value: the
centreline TI delta has no jump. -/
theorem C47_near_far_continuous (p : CH) (hp : CHok p) (ti twoa D : ℝ) (hti : 0 < ti) (ha : 0 < twoa) (hD : 0 < D) :
    chFar p ti twoa D (chNear p ti twoa * D) = p.aNear * twoa := by
  have hbase : 0 < 2 ^ p.e1 * p.aNear / (p.aFar * ti ^ p.e2) * twoa ^ (1 - p.e1) := by
    have := hp.near; have := hp.far; positivity
  unfold chFar chNear
  rw [mul_div_assoc, div_self hD.ne', mul_one, ← Real.rpow_mul hbase.le, one_div, inv_mul_cancel₀ hp.e3.ne, Real.rpow_one]
  rw [Real.div_rpow ha.le (by norm_num), Real.rpow_sub ha, Real.rpow_one]
  have h1 : (0 : ℝ) < 2 ^ p.e1 := by positivity
  have h2 : 0 < ti ^ p.e2 := Real.rpow_pos_of_pos hti _
  have h3 : 0 < twoa ^ p.e1 := Real.rpow_pos_of_pos ha _
  have h4 := hp.far
  field_simp

/-- **C47 (Crespo-Hernandez, wake radius).** The added turbulence is confined to twice the width of the Gaussian velocity wake with the same
parameters, so it reaches at least twice as far as one standard deviation of the deficit at every distance. -/
theorem C47_crespo_hernandez_radius (a : ℝ → ℝ) (sb D k x ct : ℝ) : chRadius a sb D k x ct = 2 * bastSigma a sb D k x ct := rfl

/-- **C47 (Crespo-Hernandez, shape).** The added TI is positive, never exceeds its near wake value and never grows downstream. -/
theorem C47_crespo_hernandez_shape (p : CH) (hp : CHok p) (ti twoa D x x' : ℝ) (hti : 0 < ti) (ha : 0 < twoa) (hD : 0 < D)
    (hx : 0 < x) (hxx : x ≤ x') :
    0 < chCentre p ti twoa D x ∧ chCentre p ti twoa D x ≤ p.aNear * twoa ∧
    chCentre p ti twoa D x' ≤ chCentre p ti twoa D x := by
  have hN : 0 < chNear p ti twoa := by
    unfold chNear; have := hp.near; have := hp.far; positivity
  have hfar_pos : ∀ y, 0 < y → 0 < chFar p ti twoa D y := by
    intro y hy; unfold chFar; have := hp.far; positivity
  have hfar_anti : ∀ y y', 0 < y → y ≤ y' → chFar p ti twoa D y' ≤ chFar p ti twoa D y := by
    intro y y' hy hyy
    unfold chFar
    have h1 : (y' / D) ^ p.e3 ≤ (y / D) ^ p.e3 :=
      Real.rpow_le_rpow_of_nonpos (by positivity) (by gcongr) hp.e3.le
    have := hp.far
    gcongr
  have hle : ∀ y, chNear p ti twoa * D ≤ y → chFar p ti twoa D y ≤ p.aNear * twoa := by
    intro y hy
    rw [← C47_near_far_continuous p hp ti twoa D hti ha hD]
    exact hfar_anti _ _ (by positivity) hy
  have hnear : 0 < p.aNear * twoa := mul_pos hp.near ha
  unfold chCentre
  refine ⟨?_, ?_, ?_⟩
  · split
    · exact hnear
    · exact hfar_pos x hx
  · split
    · exact le_refl _
    · exact hle x (not_lt.1 ‹_›)
  · split
    · rename_i h1
      rw [if_pos (lt_of_le_of_lt hxx h1)]
    · rename_i h1
      split
      · exact hle x' (not_lt.1 h1)
      · exact hfar_anti x x' hx hxx

example : CHok ⟨0.362, 0.73, 0.83, -0.0325, -0.32⟩ := ⟨by norm_num, by norm_num, by norm_num⟩

/-- **C47 (IEC).** The added TI of both IEC variants is positive, at most 2/3, and falls downstream. -/
theorem C47_iec (D ws ct x x' : ℝ) (hD : 0 < D) (hx : 0 ≤ x) (hxx : x ≤ x') :
    (0 < iec2005 D ws x ∧ iec2005 D ws x ≤ 2 / 3 ∧ iec2005 D ws x' ≤ iec2005 D ws x) ∧
    (0 < iec2019 D ct x ∧ iec2019 D ct x ≤ 2 / 3 ∧ iec2019 D ct x' ≤ iec2019 D ct x) := by
  have h9 : √(0.9 : ℝ) ≤ 1 := by rw [Real.sqrt_le_one]; norm_num
  have h9' : 0 < √(0.9 : ℝ) := Real.sqrt_pos.2 (by norm_num)
  have hw := Real.sqrt_nonneg ws
  have hc := Real.sqrt_nonneg ct
  have hx' : 0 ≤ x' := le_trans hx hxx
  have a1 : 0 ≤ 0.3 * x / D * √ws := by positivity
  have a2 : 0.3 * x / D * √ws ≤ 0.3 * x' / D * √ws := by gcongr
  have b1 : 0 ≤ 0.8 * x / D / √ct := by positivity
  have b2 : 0.8 * x / D / √ct ≤ 0.8 * x' / D / √ct := by gcongr
  refine ⟨⟨by unfold iec2005; positivity, ?_, ?_⟩, ⟨by unfold iec2019; positivity, ?_, ?_⟩⟩
  · unfold iec2005; rw [div_le_div_iff₀ (by linarith) (by norm_num)]; nlinarith
  · unfold iec2005; gcongr
  · unfold iec2019; rw [div_le_div_iff₀ (by linarith) (by norm_num)]; linarith
  · unfold iec2019; gcongr

end Foxes.Props.WakeModels
