import Mathlib.Tactic.Linarith
import Mathlib.Tactic.Positivity
import Mathlib.Tactic.NormNum
import Mathlib.Tactic.Ring
import Mathlib.Tactic.FieldSimp
import Mathlib.Tactic.GCongr
import Mathlib.Topology.Order.Basic
import Mathlib.Analysis.Calculus.Deriv.MeanValue
import Mathlib.Analysis.SpecialFunctions.Trigonometric.ArctanDeriv
import Mathlib.Analysis.SpecialFunctions.Log.Deriv
import Mathlib.Analysis.SpecialFunctions.Pow.Continuity
import Mathlib.Analysis.SpecialFunctions.Pow.Asymptotics
import Mathlib.Analysis.SpecialFunctions.Log.Basic
import Verif.Model.Abl
import Verif.Props.PowerCurve
/-
C36: atmospheric profiles. C49: point models.
-/
namespace Foxes.Props.Abl

open Foxes.Abl Filter Topology
noncomputable section

/-- Shape of the wind profile: `log(h/z0) - psi`. -/
def shape (z0 : ℝ) (mol : Option ℝ) (h : ℝ) : ℝ :=
  match mol with
  | none => logz h z0
  | some m => if m = 0 then logz h z0 else if m > 0 then logz h z0 - stablePsi h m else logz h z0 - unstablePsi h m

lemma kappa_pos : 0 < kappa := by unfold kappa; norm_num

lemma profile_ref (ws h0 z0 : ℝ) (mol : Option ℝ) (h : ℝ) :
    logProfile (.ref ws h0) z0 mol h = ws / shape z0 mol h0 * shape z0 mol h := by
  have hk := kappa_pos.ne'
  unfold logProfile shape
  cases mol with
  | none => simp only [neutralProfile, neutralWs, neutralUstar]; field_simp
  | some m =>
    simp only
    split_ifs
    · simp only [neutralProfile, neutralWs, neutralUstar]; field_simp
    · simp only [stableProfile, stratifiedWs, stableUstar]; field_simp
    · simp only [unstableProfile, stratifiedWs, unstableUstar]; field_simp

lemma profile_ustar (u z0 : ℝ) (mol : Option ℝ) (h : ℝ) : logProfile (.ustar u) z0 mol h = u / kappa * shape z0 mol h := by
  unfold logProfile shape
  cases mol with
  | none => rfl
  | some m => simp only; split_ifs <;> rfl

lemma logz_nonneg (h z0 : ℝ) (hz : 0 < z0) : 0 ≤ logz h z0 := by
  unfold logz
  exact Real.log_nonneg ((one_le_div hz).2 (le_max_right _ _))

lemma logz_pos (h z0 : ℝ) (hz : 0 < z0) (hh : z0 < h) : 0 < logz h z0 := by
  unfold logz
  rw [max_eq_left hh.le]
  exact Real.log_pos ((one_lt_div hz).2 hh)

lemma logz_low (h z0 : ℝ) (hz : 0 < z0) (hh : h ≤ z0) : logz h z0 = 0 := by
  unfold logz; rw [max_eq_right hh, div_self hz.ne', Real.log_one]

lemma logz_strict (a b z0 : ℝ) (hz : 0 < z0) (ha : z0 ≤ a) (hab : a < b) : logz a z0 < logz b z0 := by
  unfold logz
  rw [max_eq_left ha, max_eq_left (ha.trans hab.le)]
  exact Real.log_lt_log (by have := hz.trans_le ha; positivity) (by gcongr)

lemma stablePsi_eq (h m : ℝ) (hm : 0 < m) : stablePsi h m = -(5 * (min h m / m)) := by
  unfold stablePsi; rw [abs_of_pos hm]; ring

lemma stablePsi_anti (a b m : ℝ) (hm : 0 < m) (hab : a ≤ b) : stablePsi b m ≤ stablePsi a m := by
  rw [stablePsi_eq _ _ hm, stablePsi_eq _ _ hm]
  have : min a m / m ≤ min b m / m := by gcongr
  linarith

lemma stablePsi_nonpos (h m : ℝ) (hm : 0 < m) (hh : 0 ≤ h) : stablePsi h m ≤ 0 := by
  rw [stablePsi_eq _ _ hm]
  have : 0 ≤ min h m / m := div_nonneg (le_min hh hm.le) hm.le
  linarith

/-- `x` of the unstable profile -/
lemma x_props (h m : ℝ) (hm : m < 0) (hh : 0 < h) :
    let x := (1 - 16 * h / m) ^ (0.25 : ℝ)
    1 < x ∧ x ^ 4 = 1 - 16 * h / m := by
  have hpos : 16 * h / m < 0 := div_neg_of_pos_of_neg (by positivity) hm
  have hb : 0 ≤ 1 - 16 * h / m := by linarith
  refine ⟨Real.one_lt_rpow (by linarith) (by norm_num), ?_⟩
  rw [← Real.rpow_natCast, ← Real.rpow_mul hb]; norm_num

lemma x_mono (a b m : ℝ) (hm : m < 0) (ha : 0 < a) (hab : a < b) :
    (1 - 16 * a / m) ^ (0.25 : ℝ) < (1 - 16 * b / m) ^ (0.25 : ℝ) := by
  have h1 : 16 * b / m < 16 * a / m := (div_lt_div_right_of_neg hm).2 (by linarith)
  have h2 : 16 * a / m < 0 := div_neg_of_pos_of_neg (by positivity) hm
  exact Real.rpow_lt_rpow (by linarith) (by linarith) (by norm_num)

/-- with `h = (x^4-1) |mol| / 16`, `log h - psi` is increasing in `x` -/
lemma unstable_form (h m : ℝ) (hm : m < 0) (hh : 0 < h) :
    let x := (1 - 16 * h / m) ^ (0.25 : ℝ)
    Real.log h - unstablePsi h m =
      Real.log ((x - 1) / (x + 1)) + 2 * Real.arctan x + (Real.log (-m / 16) + 3 * Real.log 2 - Real.pi / 2) := by
  intro x
  obtain ⟨hx1, hx4⟩ := x_props h m hm hh
  have hx1 : 1 < x := hx1
  have hx4 : x ^ 4 = 1 - 16 * h / m := hx4
  have hh' : h = (-m / 16) * ((x - 1) * (x + 1) * (1 + x ^ 2)) := by
    have : (x - 1) * (x + 1) * (1 + x ^ 2) = x ^ 4 - 1 := by ring
    rw [this, hx4]; have := hm.ne; field_simp; ring
  have hm' : 0 < -m / 16 := by linarith
  have e1 : Real.log h = Real.log (-m / 16) + (Real.log (x - 1) + Real.log (x + 1) + Real.log (1 + x ^ 2)) := by
    conv_lhs => rw [hh']
    rw [Real.log_mul hm'.ne' (by have : 0 < x - 1 := by linarith
                                 positivity),
      Real.log_mul (by have : 0 < x - 1 := by linarith
                       positivity) (by positivity), Real.log_mul (by linarith) (by linarith)]
  unfold unstablePsi
  change _ - (2 * Real.log ((1 + x) / 2) + Real.log ((1 + x ^ 2) / 2) - 2 * Real.arctan x + Real.pi / 2) = _
  rw [e1, Real.log_div (x := 1 + x) (y := 2) (by linarith) (by norm_num),
    Real.log_div (x := 1 + x ^ 2) (y := 2) (by positivity) (by norm_num),
    Real.log_div (x := x - 1) (y := x + 1) (by linarith) (by linarith), add_comm 1 x]
  ring

lemma unstable_increasing (a b m : ℝ) (hm : m < 0) (ha : 0 < a) (hab : a < b) :
    Real.log a - unstablePsi a m < Real.log b - unstablePsi b m := by
  rw [unstable_form a m hm ha, unstable_form b m hm (ha.trans hab)]
  have hx := x_mono a b m hm ha hab
  have h1 := (x_props a m hm ha).1
  set x := (1 - 16 * a / m) ^ (0.25 : ℝ)
  set y := (1 - 16 * b / m) ^ (0.25 : ℝ)
  have h1 : 1 < x := h1
  have e1 : Real.log ((x - 1) / (x + 1)) < Real.log ((y - 1) / (y + 1)) := by
    refine Real.log_lt_log (div_pos (by linarith) (by linarith)) ?_
    rw [div_lt_div_iff₀ (by linarith) (by linarith)]
    nlinarith
  have e2 : Real.arctan x < Real.arctan y := Real.arctan_strictMono hx
  linarith

lemma unstablePsi_zero (m : ℝ) : unstablePsi 0 m = 0 := by
  unfold unstablePsi
  simp only [mul_zero, zero_div, sub_zero, Real.one_rpow]
  rw [Real.arctan_one]; norm_num; ring

/-- `psi` grows with height -/
lemma unstablePsi_strict (a b m : ℝ) (hm : m < 0) (ha : 0 ≤ a) (hab : a < b) : unstablePsi a m < unstablePsi b m := by
  have hxy : (1 - 16 * a / m) ^ (0.25 : ℝ) < (1 - 16 * b / m) ^ (0.25 : ℝ) := by
    have h1 : 16 * b / m < 16 * a / m := (div_lt_div_right_of_neg hm).2 (by linarith)
    have h2 : 16 * a / m ≤ 0 := div_nonpos_of_nonneg_of_nonpos (by positivity) hm.le
    exact Real.rpow_lt_rpow (by linarith) (by linarith) (by norm_num)
  have hx1 : 1 ≤ (1 - 16 * a / m) ^ (0.25 : ℝ) := by
    have h2 : 16 * a / m ≤ 0 := div_nonpos_of_nonneg_of_nonpos (by positivity) hm.le
    exact Real.one_le_rpow (by linarith) (by norm_num)
  unfold unstablePsi
  simp only
  set x := (1 - 16 * a / m) ^ (0.25 : ℝ)
  set y := (1 - 16 * b / m) ^ (0.25 : ℝ)
  have e1 : Real.log ((1 + x) / 2) < Real.log ((1 + y) / 2) := Real.log_lt_log (by linarith) (by linarith)
  -- arctan is 1-Lipschitz and below half of the logarithm here
  have e2 : Real.log ((1 + x ^ 2) / 2) - 2 * Real.arctan x ≤ Real.log ((1 + y ^ 2) / 2) - 2 * Real.arctan y := by
    have hmono : MonotoneOn (fun t : ℝ => Real.log ((1 + t ^ 2) / 2) - 2 * Real.arctan t) (Set.Ici 1) := by
      apply monotoneOn_of_deriv_nonneg (convex_Ici 1)
      · apply ContinuousOn.sub
        · exact ContinuousOn.log (by fun_prop) (fun t _ => by positivity)
        · fun_prop
      · intro t _
        apply DifferentiableAt.differentiableWithinAt
        apply DifferentiableAt.sub
        · exact DifferentiableAt.log (by fun_prop) (by positivity)
        · exact (Real.differentiableAt_arctan t).const_mul 2
      · intro t ht
        rw [interior_Ici, Set.mem_Ioi] at ht
        have hd : HasDerivAt (fun t : ℝ => Real.log ((1 + t ^ 2) / 2) - 2 * Real.arctan t)
            ((2 * t / 2) / ((1 + t ^ 2) / 2) - 2 * (1 / (1 + t ^ 2))) t := by
          apply HasDerivAt.sub
          · apply HasDerivAt.log
            · have := ((hasDerivAt_pow 2 t).const_add 1).div_const 2
              simpa using this
            · positivity
          · exact (Real.hasDerivAt_arctan t).const_mul 2
        rw [hd.deriv]
        have h1 : 0 < 1 + t ^ 2 := by positivity
        have : (2 * t / 2) / ((1 + t ^ 2) / 2) - 2 * (1 / (1 + t ^ 2)) = 2 * (t - 1) / (1 + t ^ 2) := by field_simp
        rw [this]
        apply div_nonneg <;> linarith
    exact hmono hx1 (hx1.trans hxy.le) hxy.le
  linarith

lemma unstablePsi_pos (h m : ℝ) (hm : m < 0) (hh : 0 < h) : 0 < unstablePsi h m := by
  have := unstablePsi_strict 0 h m hm le_rfl hh
  rwa [unstablePsi_zero] at this

/-! ### Theorems -/

/-- **C36 (reference height).** All log profiles return the given wind speed at the reference height: neutral and stable ones for
every reference height above the roughness length, unstable ones if the log law does not vanish there. -/
theorem C36_reference (ws h0 z0 : ℝ) (mol : Option ℝ) (hz : 0 < z0) (hh : z0 < h0) (hu : ∀ m, mol = some m → m < 0 → logz h0 z0 ≠ unstablePsi h0 m) :
    logProfile (.ref ws h0) z0 mol h0 = ws := by
  rw [profile_ref]
  have hl := logz_pos h0 z0 hz hh
  have : shape z0 mol h0 ≠ 0 := by
    unfold shape
    cases mol with
    | none => exact hl.ne'
    | some m =>
      simp only
      split_ifs with h1 h2
      · exact hl.ne'
      · have := stablePsi_nonpos h0 m h2 (hz.trans hh).le
        linarith
      · have hm : m < 0 := lt_of_le_of_ne (not_lt.1 h2) h1
        exact sub_ne_zero.2 (hu m rfl hm)
  field_simp

/-- **C36 (choice of the reference height).** The wind speed of a profile at any height `h1`, used as new reference, gives the same
profile (where the profile does not vanish). -/
theorem C36_rereference (ws h0 h1 z0 : ℝ) (mol : Option ℝ) (h : ℝ) (hn : logProfile (.ref ws h0) z0 mol h1 ≠ 0) :
    logProfile (.ref (logProfile (.ref ws h0) z0 mol h1) h1) z0 mol h = logProfile (.ref ws h0) z0 mol h := by
  rw [profile_ref] at hn
  have h2 : shape z0 mol h1 ≠ 0 := fun e => hn (by rw [e, mul_zero])
  rw [profile_ref, profile_ref, profile_ref]
  field_simp

/-- **C36 (friction velocity).** The profile from a reference wind speed is the one from the friction velocity that belongs to the
reference (neutral, stable and unstable formula). -/
theorem C36_ustar (ws h0 z0 h m : ℝ) :
    logProfile (.ref ws h0) z0 none h = logProfile (.ustar (neutralUstar ws h0 z0)) z0 none h ∧
    (0 < m → logProfile (.ref ws h0) z0 (some m) h = logProfile (.ustar (stableUstar ws h0 z0 m)) z0 (some m) h) ∧
    (m < 0 → logProfile (.ref ws h0) z0 (some m) h = logProfile (.ustar (unstableUstar ws h0 z0 m)) z0 (some m) h) := by
  refine ⟨rfl, ?_, ?_⟩
  · intro hm; simp only [logProfile, if_neg hm.ne', if_pos hm]; rfl
  · intro hm; simp only [logProfile, if_neg hm.ne, if_neg (not_lt.2 hm.le)]; rfl

/-- **C36 (neutral and stable: monotone).** For positive friction velocity the wind speed strictly increases with height above the
roughness length, and is non-negative at every height. -/
theorem C36_neutral_stable_monotone (u z0 : ℝ) (mol : Option ℝ) (hu : 0 < u) (hz : 0 < z0) (hm : ∀ m, mol = some m → 0 ≤ m) :
    (∀ h, 0 ≤ h → 0 ≤ logProfile (.ustar u) z0 mol h) ∧
    (∀ a b, z0 ≤ a → a < b → logProfile (.ustar u) z0 mol a < logProfile (.ustar u) z0 mol b) := by
  have hk : 0 < u / kappa := div_pos hu kappa_pos
  constructor
  · intro h hh
    rw [profile_ustar]
    refine mul_nonneg hk.le ?_
    have hl := logz_nonneg h z0 hz
    unfold shape
    cases mol with
    | none => exact hl
    | some m =>
      simp only
      split_ifs with h1 h2
      · exact hl
      · have := stablePsi_nonpos h m h2 hh; linarith
      · exact absurd (lt_of_le_of_ne (hm m rfl) (Ne.symm h1)) h2
  · intro a b ha hab
    rw [profile_ustar, profile_ustar]
    refine mul_lt_mul_of_pos_left ?_ hk
    have hl := logz_strict a b z0 hz ha hab
    unfold shape
    cases mol with
    | none => exact hl
    | some m =>
      simp only
      split_ifs with h1 h2
      · exact hl
      · have := stablePsi_anti a b m h2 hab.le; linarith
      · exact absurd (lt_of_le_of_ne (hm m rfl) (Ne.symm h1)) h2

/-- **C36 (neutral and stable: reference).** The friction velocity is positive exactly if the reference wind speed is. -/
theorem C36_ustar_sign (ws h0 z0 m : ℝ) (hz : 0 < z0) (hh : z0 < h0) (hm : 0 < m) :
    (0 < neutralUstar ws h0 z0 ↔ 0 < ws) ∧ (0 < stableUstar ws h0 z0 m ↔ 0 < ws) := by
  have hl := logz_pos h0 z0 hz hh
  have hs := stablePsi_nonpos h0 m hm (hz.trans hh).le
  have hd : 0 < logz h0 z0 - stablePsi h0 m := by linarith
  unfold neutralUstar stableUstar
  constructor
  · rw [div_pos_iff_of_pos_right hl, mul_pos_iff_of_pos_right kappa_pos]
  · rw [div_pos_iff_of_pos_right hd, mul_pos_iff_of_pos_right kappa_pos]

/-- **C36 (unstable: monotone).** For positive friction velocity also the unstable profile strictly increases above the roughness
length. -/
theorem C36_unstable_monotone (u z0 m : ℝ) (hu : 0 < u) (hz : 0 < z0) (hm : m < 0) (a b : ℝ) (ha : z0 ≤ a) (hab : a < b) :
    logProfile (.ustar u) z0 (some m) a < logProfile (.ustar u) z0 (some m) b := by
  have hk : 0 < u / kappa := div_pos hu kappa_pos
  rw [profile_ustar, profile_ustar]
  refine mul_lt_mul_of_pos_left ?_ hk
  simp only [shape, if_neg hm.ne, if_neg (not_lt.2 hm.le)]
  have ha0 := hz.trans_le ha
  have := unstable_increasing a b m hm ha0 hab
  unfold logz
  rw [max_eq_left ha, max_eq_left (ha.trans hab.le), Real.log_div ha0.ne' hz.ne', Real.log_div (ha0.trans hab).ne' hz.ne']
  linarith

/-- **C36 (unstable: finding).** For positive friction velocity the unstable wind speed is negative up to a height above the
roughness length, and below the roughness length it even falls with height. -/
theorem C36_unstable_negative (u z0 m : ℝ) (hu : 0 < u) (hz : 0 < z0) (hm : m < 0) :
    (∃ h1, z0 < h1 ∧ ∀ h, 0 < h → h < h1 → logProfile (.ustar u) z0 (some m) h < 0) ∧
    (∀ a b, 0 ≤ a → a < b → b ≤ z0 → logProfile (.ustar u) z0 (some m) b < logProfile (.ustar u) z0 (some m) a) := by
  have hk : 0 < u / kappa := div_pos hu kappa_pos
  constructor
  · have hp := unstablePsi_pos z0 m hm hz
    refine ⟨z0 * Real.exp (unstablePsi z0 m), ?_, ?_⟩
    · have := Real.one_lt_exp_iff.2 hp
      nlinarith
    · intro h hh hlt
      rw [profile_ustar]
      refine mul_neg_of_pos_of_neg hk ?_
      simp only [shape, if_neg hm.ne, if_neg (not_lt.2 hm.le)]
      rcases le_or_gt h z0 with hle | hgt
      · rw [logz_low h z0 hz hle]
        have := unstablePsi_pos h m hm hh
        linarith
      · have h1 : logz h z0 < unstablePsi z0 m := by
          unfold logz
          rw [max_eq_left hgt.le, Real.log_lt_iff_lt_exp (by positivity), div_lt_iff₀ hz]
          linarith
        have h2 := unstablePsi_strict z0 h m hm hz.le hgt
        linarith
  · intro a b ha hab hb
    rw [profile_ustar, profile_ustar]
    refine mul_lt_mul_of_pos_left ?_ hk
    simp only [shape, if_neg hm.ne, if_neg (not_lt.2 hm.le)]
    rw [logz_low b z0 hz hb, logz_low a z0 hz (hab.le.trans hb)]
    have := unstablePsi_strict a b m hm ha hab
    linarith

/-- **C36 (stratification).** With the same friction velocity, the wind speed at any height is larger in stable and smaller in unstable
stratification than in neutral one. -/
theorem C36_stratification_order (u z0 h ms mu : ℝ) (hu : 0 < u) (hh : 0 < h) (h1 : 0 < ms) (h2 : mu < 0) :
    logProfile (.ustar u) z0 none h < logProfile (.ustar u) z0 (some ms) h ∧
    logProfile (.ustar u) z0 (some mu) h < logProfile (.ustar u) z0 none h := by
  have hk : 0 < u / kappa := div_pos hu kappa_pos
  rw [profile_ustar, profile_ustar, profile_ustar]
  simp only [shape, if_neg h1.ne', if_pos h1, if_neg h2.ne, if_neg (not_lt.2 h2.le)]
  have e1 : stablePsi h ms < 0 := by
    rw [stablePsi_eq _ _ h1]
    have : 0 < min h ms / ms := div_pos (lt_min hh h1) h1
    linarith
  have e2 := unstablePsi_pos h mu h2 hh
  constructor <;> refine mul_lt_mul_of_pos_left ?_ hk <;> linarith

/-- **C36 (neutral limit).** For growing Monin-Obukhov length, of either sign, the profile tends to the neutral one; NaN and zero mean
neutral. -/
theorem C36_neutral_limit (ws h0 z0 h : ℝ) (hz : 0 < z0) (hh : z0 < h0) :
    Tendsto (fun m => logProfile (.ref ws h0) z0 (some m) h) atTop (𝓝 (logProfile (.ref ws h0) z0 none h)) ∧
    Tendsto (fun m => logProfile (.ref ws h0) z0 (some m) h) atBot (𝓝 (logProfile (.ref ws h0) z0 none h)) ∧
    logProfile (.ref ws h0) z0 (some 0) h = logProfile (.ref ws h0) z0 none h := by
  have hl := logz_pos h0 z0 hz hh
  have key : ∀ (f : Filter ℝ), (∀ k, Tendsto (fun m => shape z0 (some m) k) f (𝓝 (shape z0 none k))) →
      Tendsto (fun m => logProfile (.ref ws h0) z0 (some m) h) f (𝓝 (logProfile (.ref ws h0) z0 none h)) := by
    intro f hf
    simp only [profile_ref]
    exact ((tendsto_const_nhds (x := ws)).div (hf h0) hl.ne').mul (hf h)
  refine ⟨key _ ?_, key _ ?_, ?_⟩
  · intro k
    have h1 : Tendsto (fun m : ℝ => logz k z0 - (-5 * k / m)) atTop (𝓝 (logz k z0 - 0)) :=
      tendsto_const_nhds.sub (tendsto_const_nhds.div_atTop tendsto_id)
    rw [sub_zero] at h1
    refine (h1.congr' ?_)
    filter_upwards [eventually_gt_atTop 0, eventually_ge_atTop k] with m hm hk
    simp only [shape, if_neg hm.ne', if_pos hm, stablePsi, abs_of_pos hm, min_eq_left hk]
  · intro k
    have hx : Tendsto (fun m : ℝ => (1 - 16 * k / m)) atBot (𝓝 1) := by
      have : Tendsto (fun m : ℝ => 1 - 16 * k / m) atBot (𝓝 (1 - 0)) := tendsto_const_nhds.sub (tendsto_const_nhds.div_atBot tendsto_id)
      rwa [sub_zero] at this
    have hpsi : ContinuousAt (fun t : ℝ => 2 * Real.log ((1 + t ^ (0.25 : ℝ)) / 2) + Real.log ((1 + (t ^ (0.25 : ℝ)) ^ 2) / 2)
        - 2 * Real.arctan (t ^ (0.25 : ℝ)) + Real.pi / 2) 1 := by
      have hr : ContinuousAt (fun t : ℝ => t ^ (0.25 : ℝ)) 1 := Real.continuousAt_rpow_const 1 _ (Or.inl one_ne_zero)
      have hA : ContinuousAt (fun t : ℝ => Real.log ((1 + t ^ (0.25 : ℝ)) / 2)) 1 :=
        ((continuousAt_const.add hr).div_const 2).log (by norm_num)
      have hB : ContinuousAt (fun t : ℝ => Real.log ((1 + (t ^ (0.25 : ℝ)) ^ 2) / 2)) 1 :=
        ((continuousAt_const.add (hr.pow 2)).div_const 2).log (by norm_num)
      have hC : ContinuousAt (fun t : ℝ => Real.arctan (t ^ (0.25 : ℝ))) 1 := Real.continuous_arctan.continuousAt.comp hr
      exact (((continuousAt_const.mul hA).add hB).sub (continuousAt_const.mul hC)).add continuousAt_const
    have h0 := hpsi.tendsto.comp hx
    have hv : (2 * Real.log ((1 + (1:ℝ) ^ (0.25 : ℝ)) / 2) + Real.log ((1 + ((1:ℝ) ^ (0.25 : ℝ)) ^ 2) / 2)
        - 2 * Real.arctan ((1:ℝ) ^ (0.25 : ℝ)) + Real.pi / 2) = 0 := by
      have := unstablePsi_zero 1
      unfold unstablePsi at this
      simpa using this
    rw [hv] at h0
    have h1 : Tendsto (fun m : ℝ => logz k z0 - unstablePsi k m) atBot (𝓝 (logz k z0 - 0)) := tendsto_const_nhds.sub h0
    rw [sub_zero] at h1
    refine (h1.congr' ?_)
    filter_upwards [eventually_lt_atBot 0] with m hm
    simp only [shape, if_neg hm.ne, if_neg (not_lt.2 hm.le)]
  · simp only [logProfile, if_true]

/-- **C36 (shear).** The power law profile returns the reference value, gives the same profile if referenced elsewhere, and does not
decrease with height for non-negative shear and wind speed. -/
theorem C36_sheared (ws h0 shear : ℝ) (hh : 0 < h0) :
    sheared ws h0 shear h0 = ws ∧
    (∀ h1 h, 0 < h1 → 0 < h → sheared (sheared ws h0 shear h1) h1 shear h = sheared ws h0 shear h) ∧
    (0 ≤ ws → 0 ≤ shear → ∀ a b, 0 ≤ a → a ≤ b → 0 ≤ sheared ws h0 shear a ∧ sheared ws h0 shear a ≤ sheared ws h0 shear b) ∧
    (0 < ws → 0 < shear → ∀ a b, 0 ≤ a → a < b → sheared ws h0 shear a < sheared ws h0 shear b) := by
  unfold sheared
  refine ⟨?_, ?_, ?_, ?_⟩
  · rw [div_self hh.ne', Real.one_rpow, mul_one]
  · intro h1 h h1p hp
    rw [mul_assoc, ← Real.mul_rpow (by positivity) (by positivity)]
    congr 2
    field_simp
  · intro hw hs a b ha hab
    refine ⟨mul_nonneg hw (Real.rpow_nonneg (by positivity) _), ?_⟩
    gcongr
  · intro hw hs a b ha hab
    exact mul_lt_mul_of_pos_left (Real.rpow_lt_rpow (by positivity) (by gcongr) hs) hw

/-- **C36 (data profile).** A profile from data returns the data at the data heights, the straight line in between, raises outside, and
does not depend on the order of the data. -/
theorem C36_data_profile (tab tab' : List (ℝ × ℝ)) (hp : tab.Perm tab') (hn : (tab.map Prod.fst).Nodup) :
    (∀ z v, (z, v) ∈ tab → dataProfile tab z = some v) ∧
    (∀ z, (dataProfile tab z).isSome ↔ (∃ p ∈ tab, p.1 ≤ z) ∧ (∃ p ∈ tab, z ≤ p.1)) ∧
    (∀ z, dataProfile tab z = dataProfile tab' z) := by
  let R : ℝ × ℝ → ℝ × ℝ → Prop := fun a b => a.1 ≤ b.1
  have : Std.Total R := ⟨fun a b => le_total a.1 b.1⟩
  have : IsTrans (ℝ × ℝ) R := ⟨fun a b c h1 h2 => le_trans h1 h2⟩
  have hs := List.pairwise_insertionSort R tab
  have hs' := List.pairwise_insertionSort R tab'
  have hpm := List.perm_insertionSort R tab
  have hpm' := List.perm_insertionSort R tab'
  have hnd : (sortZ tab).Pairwise (fun a b => a.1 ≠ b.1) := by
    have : ((sortZ tab).map Prod.fst).Nodup := (hpm.map Prod.fst).nodup_iff.2 hn
    rwa [List.Nodup, List.pairwise_map] at this
  have hinc : PowerCurve.Increasing (sortZ tab) := by
    unfold PowerCurve.Increasing
    exact List.Pairwise.imp₂ (fun a b h1 h2 => lt_of_le_of_ne h1 h2) hs hnd
  have heq : sortZ tab = sortZ tab' := by
    refine List.Perm.eq_of_pairwise (le := R) ?_ hs hs' (hpm.trans (hp.trans hpm'.symm))
    intro a b ha hb h1 h2
    have e : a.1 = b.1 := le_antisymm h1 h2
    have ha' : a ∈ tab := hpm.mem_iff.1 ha
    have hb' : b ∈ tab := hp.mem_iff.2 (hpm'.mem_iff.1 hb)
    exact List.inj_on_of_nodup_map hn ha' hb' e
  refine ⟨?_, ?_, ?_⟩
  · intro z v hm
    unfold dataProfile
    rw [if_pos ⟨⟨_, hm, le_rfl⟩, ⟨_, hm, le_rfl⟩⟩, PowerCurve.C35_at_samples _ hinc z v (hpm.mem_iff.2 hm)]
  · intro z
    unfold dataProfile
    split_ifs with h
    · simp only [Option.isSome_some, h, and_self]
    · simp only [Option.isSome_none, h, Bool.false_eq_true]
  · intro z
    unfold dataProfile
    rw [heq]
    simp only [hp.mem_iff]

/-! ### Point models -/

/-- **C49 (TI from friction velocity).** In a neutral profile the turbulence intensity is `1/log(h/z0)`. -/
theorem C49_ustar_ti (ws h0 z0 h : ℝ) (hz : 0 < z0) (h0z : z0 < h0) (hh : z0 < h) (hw : ws ≠ 0) :
    ustar2ti none (neutralUstar ws h0 z0) (logProfile (.ref ws h0) z0 none h) = 1 / Real.log (h / z0) := by
  have hl0 := logz_pos h0 z0 hz h0z
  have hl := logz_pos h z0 hz hh
  have e : Real.log (h / z0) = logz h z0 := by unfold logz; rw [max_eq_left hh.le]
  rw [e, profile_ref]
  unfold ustar2ti neutralUstar shape
  have := kappa_pos
  simp only
  field_simp

/-- **C49 (finding).** `max_ti`, documented as the upper limit of the turbulence intensity, is a lower limit: larger values are not
cut, and smaller ones are raised to it. -/
theorem C49_max_ti (m ustar ws : ℝ) :
    m ≤ ustar2ti (some m) ustar ws ∧
    (m ≤ ustar2ti none ustar ws → ustar2ti (some m) ustar ws = ustar2ti none ustar ws) ∧
    (ustar2ti none ustar ws ≤ m → ustar2ti (some m) ustar ws = m) := by
  unfold ustar2ti
  exact ⟨le_max_right _ _, fun h => max_eq_left h, fun h => max_eq_right h⟩

/-- **C49 (TI from TKE).** -/
theorem C49_tke_ti (tke ws : ℝ) (ht : 0 ≤ tke) (hw : 0 < ws) :
    0 ≤ tke2ti tke ws ∧ (tke2ti tke ws * ws) ^ 2 = 3 / 2 * tke := by
  unfold tke2ti
  refine ⟨by positivity, ?_⟩
  rw [div_mul_cancel₀ _ hw.ne', Real.sq_sqrt (by positivity)]
  norm_num

/-- **C49 (wake deltas, finding).** With `normalize` the wake deltas always fail with a KeyError (for variables that are not themselves
named `DELTA_...`). -/
theorem C49_wake_deltas_normalize (v : String) (vars : List String) (amb : String → Option String) (pdata : List (String × ℝ))
    (hv : ∀ w, v ≠ "DELTA_" ++ w) : wakeDeltas (v :: vars) true amb pdata = none := by
  have hkeys : ∀ (l : List String) (out : List (String × ℝ)), (l.mapM (fun v => do
      let a ← amb v
      let x ← dictGet pdata v
      let y ← dictGet pdata a
      return (("DELTA_" ++ v), x - y))) = some out → ∀ e ∈ out, ∃ w, e.1 = "DELTA_" ++ w := by
    intro l
    induction l with
    | nil => intro out h; simp at h; subst h; simp
    | cons w l ih =>
      intro out h
      rw [List.mapM_cons] at h
      simp only [Option.bind_eq_bind, Option.bind_eq_some_iff, Option.pure_def, Option.some.injEq] at h
      obtain ⟨a, ⟨_, _, x, _, y, _, rfl⟩, out', h2, rfl⟩ := h
      intro e he
      rw [List.mem_cons] at he
      rcases he with rfl | he
      · exact ⟨w, rfl⟩
      · exact ih out' (by simpa using h2) e he
  unfold wakeDeltas
  cases hout : ((v :: vars).mapM (fun v => do
      let a ← amb v
      let x ← dictGet pdata v
      let y ← dictGet pdata a
      return (("DELTA_" ++ v), x - y))) with
  | none => rfl
  | some out =>
    have hg : dictGet out v = none := by
      unfold dictGet
      rw [Option.map_eq_none_iff, List.find?_eq_none]
      intro e he
      obtain ⟨w, hw⟩ := hkeys _ _ hout e he
      simp only [hw, beq_iff_eq]
      exact fun h => hv w h.symm
    simp [List.foldlM_cons, hg]

/-- **C49 (wake deltas).** Without `normalize`, the delta of each variable is the waked minus the ambient value. -/
theorem C49_wake_deltas (vars : List String) (amb : String → Option String) (pdata : List (String × ℝ)) (out : List (String × ℝ))
    (h : wakeDeltas vars false amb pdata = some out) :
    List.Forall₂ (fun v (e : String × ℝ) => e.1 = "DELTA_" ++ v ∧
      ∃ a x y, amb v = some a ∧ dictGet pdata v = some x ∧ dictGet pdata a = some y ∧ e.2 = x - y) vars out := by
  unfold wakeDeltas at h
  simp only [Bool.false_eq_true, if_false, Option.bind_eq_bind, Option.pure_def, Option.bind_fun_some] at h
  induction vars generalizing out with
  | nil => simp at h; subst h; exact List.Forall₂.nil
  | cons v l ih =>
    rw [List.mapM_cons] at h
    simp only [Option.bind_eq_bind, Option.bind_eq_some_iff, Option.pure_def, Option.some.injEq] at h
    obtain ⟨e, ⟨a, ha, x, hx, y, hy, rfl⟩, out', h2, rfl⟩ := h
    exact List.Forall₂.cons ⟨rfl, a, x, y, ha, hx, hy, rfl⟩ (ih out' h2)

/- concrete cases -/
example : (0 : ℝ) < 0.1 ∧ (0.1 : ℝ) < 100 ∧ (∀ m, (none : Option ℝ) = some m → m < 0 → logz 100 0.1 ≠ unstablePsi 100 m) :=
  ⟨by norm_num, by norm_num, fun m h => by simp at h⟩
example : logProfile (.ref 9 100) 0.1 none 100 ≠ 0 := by
  rw [C36_reference 9 100 0.1 none (by norm_num) (by norm_num) (fun m h => by simp at h)]; norm_num
/-- the log law of a realistic unstable case does not vanish at hub height -/
example : unstablePsi 100 (-320 / 3) < logz 100 0.01 := by
  have hx : ((1 : ℝ) - 16 * 100 / (-320 / 3)) ^ (0.25 : ℝ) = 2 := by
    rw [show ((1 : ℝ) - 16 * 100 / (-320 / 3)) = 2 ^ (4 : ℝ) by norm_num, ← Real.rpow_mul (by norm_num)]; norm_num
  unfold unstablePsi logz
  simp only [hx]
  have h1 : Real.pi / 4 < Real.arctan 2 := by rw [← Real.arctan_one]; exact Real.arctan_strictMono (by norm_num)
  have h2 : 2 * Real.log ((1 + 2) / 2) + Real.log ((1 + 2 ^ 2) / 2) = Real.log (45 / 8) := by
    rw [two_mul, ← Real.log_mul (by norm_num) (by norm_num), ← Real.log_mul (by norm_num) (by norm_num)]; norm_num
  have h3 : Real.log (45 / 8) < Real.log (max 100 0.01 / 0.01) := by
    apply Real.log_lt_log <;> norm_num
  linarith
example : ∀ w, "WS" ≠ "DELTA_" ++ w := by
  intro w h
  have := congrArg String.toList h
  simp at this
example : wakeDeltas ["WS"] false (fun v => some ("AMB_" ++ v)) [("WS", 8), ("AMB_WS", 9)] = some [("DELTA_WS", 8 - 9)] := by
  simp [wakeDeltas, dictGet]
example : ([(10, 1), (5, 2)] : List (ℝ × ℝ)).Perm [(5, 2), (10, 1)] ∧ (([(10, 1), (5, 2)] : List (ℝ × ℝ)).map Prod.fst).Nodup :=
  ⟨List.Perm.swap _ _ _, by simp⟩

end


/-- **C36 (log law).** With given friction velocity and neutral stratification the wind speed is `ustar / 0.41 * log(h / z0)`; a uniform profile has its value at every height. -/
theorem C36_log_law (u z0 h : ℝ) (hz : 0 < z0) (hh : z0 ≤ h) (v : ℝ) :
    logProfile (.ustar u) z0 none h = u / 0.41 * Real.log (h / z0) ∧ uniform v h = v := by
  refine ⟨?_, rfl⟩
  simp only [logProfile, neutralProfile, neutralWs, logz, kappa, max_eq_left hh]

example : (0 : ℝ) < 0.1 ∧ (0.1 : ℝ) ≤ 100 := by norm_num

end Foxes.Props.Abl
