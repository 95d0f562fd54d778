import Verif.Model.PowerCurve
import Mathlib.Tactic.Linarith
import Mathlib.Tactic.Positivity
import Mathlib.Tactic.NormNum
import Mathlib.Tactic.Ring
import Mathlib.Tactic.FieldSimp
import Mathlib.Tactic.ByContra
/-
C35: power and thrust curves.
-/
namespace Foxes.Props.PowerCurve
open Foxes.PowerCurve
open scoped Classical

/-- samples with strictly increasing wind speed -/
def Increasing (tab : List (ℝ × ℝ)) : Prop := tab.Pairwise (fun p q => p.1 < q.1)

lemma interpFrom_cons (p q : ℝ × ℝ) (l : List (ℝ × ℝ)) (x : ℝ) (h : q.1 ≤ x) :
    interpFrom (p :: q :: l) x = interpFrom (q :: l) x := by rw [interpFrom, if_neg (not_lt.2 h)]

lemma interpFrom_append (l : List (ℝ × ℝ)) (q : ℝ × ℝ) (r : List (ℝ × ℝ)) (x : ℝ) (h : ∀ p ∈ l, p.1 ≤ x) (hq : q.1 ≤ x) :
    interpFrom (l ++ q :: r) x = interpFrom (q :: r) x := by
  induction l with
  | nil => rfl
  | cons p l ih =>
    have ih' := ih (fun p hp => h p (by simp [hp]))
    cases l with
    | nil => exact interpFrom_cons p q r x hq
    | cons p' l => rw [List.cons_append, List.cons_append, interpFrom_cons _ _ _ _ (h p' (by simp)), ← List.cons_append, ih']

lemma interpFrom_self (q : ℝ × ℝ) (r : List (ℝ × ℝ)) (h : Increasing (q :: r)) : interpFrom (q :: r) q.1 = q.2 := by
  cases r with
  | nil => simp [interpFrom]
  | cons p r =>
    have : q.1 < p.1 := by
      unfold Increasing at h; rw [List.pairwise_cons] at h; exact h.1 p (by simp)
    rw [interpFrom, if_pos this]; simp

lemma interp_append (l : List (ℝ × ℝ)) (q : ℝ × ℝ) (r : List (ℝ × ℝ)) (h : Increasing (l ++ q :: r)) (x : ℝ) (hx : q.1 ≤ x) :
    interp (l ++ q :: r) x = interpFrom (q :: r) x := by
  have hl : ∀ p ∈ l, p.1 ≤ x := by
    intro p hp
    unfold Increasing at h; rw [List.pairwise_append] at h
    exact (h.2.2 p hp q (by simp)).le.trans hx
  rw [← interpFrom_append l q r x hl hx]
  cases l with
  | nil => simp only [List.nil_append, interp]; rw [if_neg (not_lt.2 hx)]
  | cons p l => simp only [List.cons_append, interp]; rw [if_neg (not_lt.2 (hl p (by simp)))]

/-- **C35 (samples).** At the wind speeds of the table the look-up returns the table value. -/
theorem C35_at_samples (tab : List (ℝ × ℝ)) (h : Increasing tab) (x y : ℝ) (hm : (x, y) ∈ tab) : interp tab x = y := by
  obtain ⟨l, r, rfl⟩ := List.append_of_mem hm
  rw [interp_append l (x, y) r h x le_rfl]
  unfold Increasing at h; rw [List.pairwise_append] at h
  exact interpFrom_self (x, y) r h.2.1

/-- **C35 (between samples).** Between neighbouring wind speeds of the table the look-up is the straight line between the two values. -/
theorem C35_between_samples (l r : List (ℝ × ℝ)) (p q : ℝ × ℝ) (h : Increasing (l ++ p :: q :: r)) (x : ℝ) (h1 : p.1 ≤ x) (h2 : x ≤ q.1) :
    interp (l ++ p :: q :: r) x = p.2 + (q.2 - p.2) * ((x - p.1) / (q.1 - p.1)) := by
  have hpq : p.1 < q.1 := by
    unfold Increasing at h; rw [List.pairwise_append, List.pairwise_cons] at h
    exact h.2.1.1 q (by simp)
  have hne : q.1 - p.1 ≠ 0 := by linarith
  rcases h2.eq_or_lt with e | e
  · have := C35_at_samples _ h q.1 q.2 (by simp)
    rw [e, this]; field_simp; ring
  · rw [interp_append l p (q :: r) h x h1, interpFrom, if_pos e]; field_simp; ring

/-- **C35 (outside).** Below the first and above the last wind speed of the table the result is zero. -/
theorem C35_outside (tab : List (ℝ × ℝ)) (x : ℝ) (hx : (∀ p ∈ tab, x < p.1) ∨ (∀ p ∈ tab, p.1 < x)) : interp tab x = 0 := by
  cases tab with
  | nil => rfl
  | cons p l =>
    rcases hx with hx | hx
    · simp only [interp]; rw [if_pos (hx p (by simp))]
    · simp only [interp]
      rw [if_neg (not_lt.2 (hx p (by simp)).le)]
      induction l generalizing p with
      | nil => simp only [interpFrom]; rw [if_neg (ne_of_gt (hx p (by simp)))]
      | cons q l ih =>
        rw [interpFrom_cons _ _ _ _ (hx q (by simp)).le]
        exact ih q (fun p hp => hx p (by simp only [List.mem_cons] at hp ⊢; tauto))

lemma interpFrom_bounds (lo hi : ℝ) (h0 : lo ≤ 0) (h1 : 0 ≤ hi) : ∀ (l : List (ℝ × ℝ)) (p : ℝ × ℝ), Increasing (p :: l) →
    (∀ q ∈ p :: l, lo ≤ q.2 ∧ q.2 ≤ hi) → ∀ x, p.1 ≤ x → lo ≤ interpFrom (p :: l) x ∧ interpFrom (p :: l) x ≤ hi
  | [], p, _, hb, x, _ => by
    simp only [interpFrom]
    split_ifs
    · exact hb p (by simp)
    · exact ⟨h0, h1⟩
  | q :: l, p, hinc, hb, x, hx => by
    by_cases hq : x < q.1
    · rw [interpFrom, if_pos hq]
      have hp := hb p (by simp)
      have hq' := hb q (by simp)
      have ht0 : 0 ≤ (x - p.1) / (q.1 - p.1) := div_nonneg (by linarith) (by linarith)
      have ht1 : (x - p.1) / (q.1 - p.1) ≤ 1 := by rw [div_le_one (by linarith)]; linarith
      have e : (q.2 - p.2) / (q.1 - p.1) * (x - p.1) + p.2 = p.2 + (q.2 - p.2) * ((x - p.1) / (q.1 - p.1)) := by ring
      rw [e]
      generalize (x - p.1) / (q.1 - p.1) = t at *
      constructor <;> nlinarith
    · rw [interpFrom_cons _ _ _ _ (not_lt.1 hq)]
      have hinc' : Increasing (q :: l) := by unfold Increasing at hinc ⊢; rw [List.pairwise_cons] at hinc; exact hinc.2
      exact interpFrom_bounds lo hi h0 h1 l q hinc' (fun r hr => hb r (by simp only [List.mem_cons] at hr ⊢; tauto)) x (not_lt.1 hq)

/-- **C35 (bounds).** All results lie between the bounds of the table values (zero, which stands for "outside", included). -/
theorem C35_bounds (tab : List (ℝ × ℝ)) (h : Increasing tab) (lo hi : ℝ) (h0 : lo ≤ 0) (h1 : 0 ≤ hi)
    (hb : ∀ q ∈ tab, lo ≤ q.2 ∧ q.2 ≤ hi) (x : ℝ) : lo ≤ interp tab x ∧ interp tab x ≤ hi := by
  cases tab with
  | nil => exact ⟨h0, h1⟩
  | cons p l =>
    simp only [interp]
    split_ifs with hx
    · exact ⟨h0, h1⟩
    · exact interpFrom_bounds lo hi h0 h1 l p h hb x (not_lt.1 hx)

lemma sortTable_sorted (rows : List Row) : (sortTable rows).Pairwise (fun a b => a.ws ≤ b.ws) := by
  unfold sortTable
  let : Std.Total (fun a b : Row => a.ws ≤ b.ws) := ⟨fun a b => le_total a.ws b.ws⟩
  let : IsTrans Row (fun a b : Row => a.ws ≤ b.ws) := ⟨fun a b c h1 h2 => le_trans h1 h2⟩
  exact List.pairwise_insertionSort (fun a b : Row => a.ws ≤ b.ws) rows

lemma sortTable_perm (rows : List Row) : (sortTable rows).Perm rows := by
  unfold sortTable; exact List.perm_insertionSort _ _

lemma sortTable_strict (rows : List Row) (h : (rows.map Row.ws).Nodup) : (sortTable rows).Pairwise (fun a b => a.ws < b.ws) := by
  have hn : ((sortTable rows).map Row.ws).Nodup := ((sortTable_perm rows).map _).nodup_iff.2 h
  have hs := sortTable_sorted rows
  rw [List.Nodup, List.pairwise_map] at hn
  exact (hs.and hn).imp (fun h => lt_of_le_of_ne h.1 h.2)

/-- **C35 (row order).** The order of the rows in the table is irrelevant; the samples are strictly increasing if no wind speed
occurs twice. -/
theorem C35_row_order (rows rows' : List Row) (hp : rows.Perm rows') (h : (rows.map Row.ws).Nodup) :
    sortTable rows = sortTable rows' ∧ Increasing (tabP (sortTable rows)) ∧ Increasing (tabCt (sortTable rows)) := by
  have h' : (rows'.map Row.ws).Nodup := (hp.map _).nodup_iff.1 h
  refine ⟨?_, ?_, ?_⟩
  · refine List.Perm.eq_of_pairwise ?_ (sortTable_strict rows h) (sortTable_strict rows' h')
      ((sortTable_perm rows).trans (hp.trans (sortTable_perm rows').symm))
    intro a b _ _ h1 h2
    exact absurd h1 (lt_asymm h2)
  · unfold Increasing tabP; rw [List.pairwise_map]; exact sortTable_strict rows h
  · unfold Increasing tabCt; rw [List.pairwise_map]; exact sortTable_strict rows h

/-! ### Nominal power -/

/-- **C35 (nominal power, finding).** A nominal power determined from the table is the maximum of the curve divided by the unit in Watts.
As the curve is already given in that unit, the power at full load divided by the nominal power (the capacity of the results) is not 1 but
the unit: 1000 for kW. -/
theorem C35_p_nominal (rows : List Row) (unitW : ℝ) (hu : 0 < unitW) (r0 : Row) (h0 : r0 ∈ rows) (hmax : ∀ r ∈ rows, r.P ≤ r0.P) (hpos : 0 < r0.P) :
    ∃ pn, pNominal rows unitW = some pn ∧ r0.P / pn = unitW := by
  have hm : (rows.map Row.P).max? = some r0.P := by
    rw [List.max?_eq_some_iff]
    refine ⟨List.mem_map_of_mem h0, ?_⟩
    intro b hb
    obtain ⟨r, hr, rfl⟩ := List.mem_map.1 hb
    exact hmax r hr
  refine ⟨r0.P / unitW, by unfold pNominal; rw [hm]; rfl, ?_⟩
  field_simp

/-! ### Corrections of the wind speed -/

lemma yaw_pow (p : ℝ) (y : ℝ) (n : ℕ) (hn : n ≠ 0) (hy : |y| < 90) :
    (yawFactor (some p) (1 / n) (some y)) ^ n = Real.cos (y / 180 * Real.pi) ^ p := by
  have hpi := Real.pi_pos
  have hc : 0 ≤ Real.cos (y / 180 * Real.pi) := by
    rw [abs_lt] at hy
    apply Real.cos_nonneg_of_mem_Icc
    constructor <;> nlinarith
  have hn' : (n : ℝ) ≠ 0 := by exact_mod_cast hn
  unfold yawFactor
  simp only
  rw [← Real.rpow_natCast, ← Real.rpow_mul (Real.rpow_nonneg hc _), one_div, inv_mul_cancel₀ hn', Real.rpow_one]

/-- **C35 (yaw).** With a yaw misalignment below 90 degrees the corrected wind speeds carry the documented factors: cubed (power) the
factor `cos^pP`, squared (thrust) the factor `cos^pCt`. -/
theorem C35_yaw_correction (pP pCt ws y : ℝ) (hy : |y| < 90) :
    (ws * yawFactor (some pP) (1 / 3) (some y)) ^ 3 = ws ^ 3 * Real.cos (y / 180 * Real.pi) ^ pP ∧
    (ws * yawFactor (some pCt) (1 / 2) (some y)) ^ 2 = ws ^ 2 * Real.cos (y / 180 * Real.pi) ^ pCt := by
  have h3 := yaw_pow pP y 3 (by norm_num) hy
  have h2 := yaw_pow pCt y 2 (by norm_num) hy
  norm_num at h3 h2 ⊢
  rw [mul_pow, mul_pow, h3, h2]
  exact ⟨rfl, rfl⟩

/-- **C35 (density, finding).** In partial load the power is proportional to density and to the cube of the wind speed, and the correction
is meant to reconstruct it from the curve for the density `r`: `r * corrected^3` should be `rho * ws^3`. The code divides the wrong way:
it gets `r^2/rho * ws^3`, which is right only without correction. -/
theorem C35_density_inverted (cfg : Cfg) (r rho ws : ℝ) (hc : cfg.rho = some r) (hr : 0 < r) (hrho : 0 < rho) (hw : 0 < ws) :
    r * (ws * rhoFactor cfg rho) ^ 3 = r ^ 2 / rho * ws ^ 3 ∧
    (r * (ws * rhoFactor cfg rho) ^ 3 = rho * ws ^ 3 ↔ rho = r) ∧
    r * (ws * (rho / r) ^ (1 / 3 : ℝ)) ^ 3 = rho * ws ^ 3 := by
  have cube : ∀ z : ℝ, 0 ≤ z → (z ^ (1 / 3 : ℝ)) ^ 3 = z := by
    intro z hz
    rw [← Real.rpow_natCast, ← Real.rpow_mul hz]; norm_num
  have e : (rhoFactor cfg rho) ^ 3 = r / rho := by unfold rhoFactor; rw [hc]; exact cube _ (by positivity)
  have h1 : r * (ws * rhoFactor cfg rho) ^ 3 = r ^ 2 / rho * ws ^ 3 := by rw [mul_pow, e]; field_simp
  have hw3 : 0 < ws ^ 3 := by positivity
  refine ⟨h1, ?_, ?_⟩
  · rw [h1]
    constructor
    · intro h
      have h' : r ^ 2 / rho = rho := mul_right_cancel₀ hw3.ne' h
      rw [div_eq_iff hrho.ne'] at h'
      nlinarith
    · rintro rfl; field_simp
  · rw [mul_pow, cube _ (by positivity)]; field_simp

/-! ### Effect on the farm data -/

/-- **C35 (look-up).** If not all turbines have the type, or if different variables are used for power and thrust, power and thrust are
the curve values at the corrected wind speeds. -/
theorem C35_lookup_partial (cfg : Cfg) (view : Bool) (fd : Var → ℝ) (rho : ℝ) (yawm : Option ℝ) (h : view = false ∨ cfg.wsP ≠ cfg.wsCt) :
    (calculate cfg view fd rho yawm).1 = interp (tabP cfg.rows) (fd cfg.wsP * (rhoFactor cfg rho * yawFactor cfg.pP (1 / 3) yawm)) ∧
    (calculate cfg view fd rho yawm).2.1 = interp (tabCt cfg.rows) (fd cfg.wsCt * yawFactor cfg.pCt (1 / 2) yawm) := by
  unfold calculate
  cases view with
  | false => simp
  | true =>
    have h : cfg.wsP ≠ cfg.wsCt := by simpa using h
    simp [h, Ne.symm h, mul_assoc]

/-- **C35 (finding).** If all turbines of the farm have the type and one variable is used for power and thrust, all corrections are
applied to both look-ups. -/
theorem C35_shared_variable (cfg : Cfg) (fd : Var → ℝ) (rho : ℝ) (yawm : Option ℝ) (h : cfg.wsP = cfg.wsCt) :
    (calculate cfg true fd rho yawm).1 = interp (tabP cfg.rows)
      (fd cfg.wsP * (rhoFactor cfg rho * yawFactor cfg.pP (1 / 3) yawm) * yawFactor cfg.pCt (1 / 2) yawm) ∧
    (calculate cfg true fd rho yawm).2.1 = interp (tabCt cfg.rows)
      (fd cfg.wsCt * yawFactor cfg.pCt (1 / 2) yawm * (rhoFactor cfg rho * yawFactor cfg.pP (1 / 3) yawm)) := by
  unfold calculate
  simp only [if_true, h]
  constructor <;> congr 1 <;> ring

/-- **C35 (finding).** If all turbines of the farm have the type, the look-up overwrites the wind speed in the farm data (and thus in
the results) with the corrected value; otherwise it does not. -/
theorem C35_overwrites_wind_speed (cfg : Cfg) (fd : Var → ℝ) (rho : ℝ) (yawm : Option ℝ) (h : cfg.wsP ≠ cfg.wsCt) :
    (calculate cfg true fd rho yawm).2.2 cfg.wsP = fd cfg.wsP * (rhoFactor cfg rho * yawFactor cfg.pP (1 / 3) yawm) ∧
    (calculate cfg true fd rho yawm).2.2 cfg.wsCt = fd cfg.wsCt * yawFactor cfg.pCt (1 / 2) yawm ∧
    (∀ v, v ≠ cfg.wsP → v ≠ cfg.wsCt → (calculate cfg true fd rho yawm).2.2 v = fd v) ∧
    (calculate cfg false fd rho yawm).2.2 = fd := by
  unfold calculate
  refine ⟨?_, ?_, ?_, ?_⟩
  · simp [h, mul_assoc]
  · simp [Ne.symm h]
  · intro v h1 h2; simp [h1, h2]
  · simp

/-! ### Continuous cut-in -/

lemma ramp_fixed (steps it : ℕ) (a top : ℝ) (hs : 0 < steps) :
    ramp id steps it a top 0 = 0 ∧ ramp id steps it a top steps = top := by
  unfold ramp
  induction it with
  | zero => simp [hs.ne]
  | succ n ih => rw [Function.iterate_succ_apply']; simpa [smooth] using ih

/-- **C35 (cut-in ramp).** However many smoothing iterations are done: the ramp starts at zero, never decreases, and ends at the value at
cut-in, so it never exceeds it. -/
theorem C35_ramp (steps it : ℕ) (a top : ℝ) (hs : 0 < steps) (ha : 0 ≤ a) (ha1 : a ≤ 1) (ht : 0 ≤ top) :
    ramp id steps it a top 0 = 0 ∧ ramp id steps it a top steps = top ∧
    (∀ i < steps, ramp id steps it a top i ≤ ramp id steps it a top (i + 1)) := by
  obtain ⟨f0, f1⟩ := ramp_fixed steps it a top hs
  refine ⟨f0, f1, ?_⟩
  unfold ramp
  induction it with
  | zero =>
    intro i hi
    simp only [Function.iterate_zero, id_eq]
    split_ifs <;> first | omega | linarith
  | succ n ih =>
    obtain ⟨g0, g1⟩ := ramp_fixed steps n a top hs
    unfold ramp at g0 g1
    have ih := ih (ramp_fixed steps n a top hs).1 (ramp_fixed steps n a top hs).2
    rw [Function.iterate_succ_apply']
    set g := (smooth id steps a)^[n] (fun i => if i = steps then id top else 0) with hg
    intro i hi
    have mono1 : ∀ j, j + 1 < steps → g j ≤ g (j + 1) := fun j hj => ih j (by omega)
    unfold smooth
    simp only [id_eq]
    by_cases hi0 : i = 0
    · subst hi0
      rw [if_neg (by omega)]
      by_cases h1 : 1 < steps
      · rw [if_pos (by omega)]
        have e1 := ih 0 hs
        have e2 := ih 1 h1
        simp only [zero_add, Nat.sub_self] at *
        nlinarith
      · rw [if_neg (by omega)]; exact ih 0 hs
    · rw [if_pos (by omega)]
      have e0 := ih (i - 1) (by omega)
      rw [Nat.sub_add_cancel (by omega)] at e0
      have e1 := ih i hi
      by_cases h1 : i + 1 < steps
      · rw [if_pos (by omega)]
        have e2 := ih (i + 1) h1
        simp only [Nat.add_sub_cancel] at *
        nlinarith
      · rw [if_neg (by omega)]
        nlinarith

lemma ramp_bounds (steps it : ℕ) (a top : ℝ) (hs : 0 < steps) (ha : 0 ≤ a) (ha1 : a ≤ 1) (ht : 0 ≤ top) (i : ℕ) (hi : i ≤ steps) :
    0 ≤ ramp id steps it a top i ∧ ramp id steps it a top i ≤ top := by
  obtain ⟨h0, h1, hm⟩ := C35_ramp steps it a top hs ha ha1 ht
  constructor
  · induction i with
    | zero => rw [h0]
    | succ i ih => exact (ih (by omega)).trans (hm i (by omega))
  · have : ∀ k, k ≤ steps → ramp id steps it a top (steps - k) ≤ top := by
      intro k
      induction k with
      | zero => intro _; simp [h1]
      | succ k ih =>
        intro hk
        refine (hm (steps - (k + 1)) (by omega)).trans ?_
        rw [show steps - (k + 1) + 1 = steps - k by omega]
        exact ih (by omega)
    have := this (steps - i) (by omega)
    rwa [show steps - (steps - i) = i by omega] at this

/-- Below cut-in: all curves that are to be modified vanish (up to small values). -/
def Idle (modCt modP : Bool) (r : Row) : Prop := (modCt = true → r.ct < 1e-5) ∧ (modP = true → r.P < 0.1)

lemma belowCutin_iff (modCt modP : Bool) (r : Row) : belowCutin modCt modP r = true ↔ Idle modCt modP r := by
  cases modCt <;> cases modP <;> simp [belowCutin, Idle]

/-- **C35 (continuous cut-in).** For floating point wind speeds: let `r` be the first row at cut-in (which must exist) at positive wind
speed. The new table is strictly increasing, starts at zero wind speed with zero thrust and power, has the values of the old one from
cut-in on, and below cut-in values between zero and those at cut-in. -/
theorem C35_modify_cutin (modCt modP : Bool) (hm : modCt = true ∨ modP = true) (steps it : ℕ) (a b : ℝ) (hs : 0 < steps)
    (ha : 0 ≤ a) (ha1 : a ≤ 1) (hb : 0 ≤ b) (hb1 : b ≤ 1) (l : List Row) (r : Row) (rest : List Row)
    (hsorted : (l ++ r :: rest).Pairwise (fun x y => x.ws < y.ws)) (hl : ∀ x ∈ l, Idle modCt modP x)
    (hr : ¬ Idle modCt modP r) (hpos : 0 < r.ws) (hP : 0 ≤ r.P) (hct : 0 ≤ r.ct) :
    ∃ new, modifyCutin id modCt modP steps it a b (l ++ r :: rest) = some (new ++ r :: rest) ∧
      (new ++ r :: rest).Pairwise (fun x y => x.ws < y.ws) ∧
      (∃ x0, new.head? = some x0 ∧ x0.ws = 0 ∧ x0.P = 0 ∧ x0.ct = 0) ∧
      (∀ x ∈ new, 0 ≤ x.P ∧ x.P ≤ r.P ∧ 0 ≤ x.ct ∧ x.ct ≤ r.ct) ∧
      (∀ w, r.ws ≤ w → interp (tabP (new ++ r :: rest)) w = interp (tabP (l ++ r :: rest)) w ∧
        interp (tabCt (new ++ r :: rest)) w = interp (tabCt (l ++ r :: rest)) w) := by
  simp only [← belowCutin_iff] at hl
  have hr : belowCutin modCt modP r = false := by rw [← belowCutin_iff] at hr; simpa using hr
  have hdrop : (l ++ r :: rest).dropWhile (belowCutin modCt modP) = r :: rest := by
    rw [List.dropWhile_append_of_pos hl, List.dropWhile_cons_of_neg (by simp [hr])]
  set rp := (List.range steps).map (fun i : ℕ => Row.mk (id (i * (r.ws / steps)))
    (if modP then ramp id steps it b r.P i else 0) (if modCt then ramp id steps it a r.ct i else 0)) with hrp
  have hs' : (0 : ℝ) < steps := by exact_mod_cast hs
  have hstep : 0 < r.ws / steps := by positivity
  have hrest : (r :: rest).Pairwise (fun x y => x.ws < y.ws) := (List.pairwise_append.1 hsorted).2.1
  have hinc : (rp ++ r :: rest).Pairwise (fun x y => x.ws < y.ws) := by
    rw [List.pairwise_append]
    refine ⟨?_, hrest, ?_⟩
    · rw [hrp, List.pairwise_map]
      refine List.pairwise_lt_range.imp ?_
      intro i j hij
      have : (i : ℝ) < j := by exact_mod_cast hij
      simp only [id_eq]; nlinarith
    · intro x hx y hy
      obtain ⟨i, hi, rfl⟩ := List.mem_map.1 hx
      have hi' : (i : ℝ) < steps := by exact_mod_cast List.mem_range.1 hi
      have hlt : (i : ℝ) * (r.ws / steps) < r.ws := by
        have e : (steps : ℝ) * (r.ws / steps) = r.ws := by field_simp
        nlinarith
      have hry : r.ws ≤ y.ws := by
        rw [List.mem_cons] at hy
        rcases hy with rfl | hy
        · exact le_rfl
        · exact ((List.pairwise_cons.1 hrest).1 y hy).le
      simp only [id_eq]; linarith
  refine ⟨rp, ?_, hinc, ?_, ?_, ?_⟩
  · unfold modifyCutin
    rw [if_pos (by simpa using hm), hdrop]
    simp only
    rw [if_pos hpos]
  · obtain ⟨k, rfl⟩ : ∃ k, steps = k + 1 := ⟨steps - 1, by omega⟩
    refine ⟨_, by rw [hrp, List.range_succ_eq_map]; rfl, ?_, ?_, ?_⟩
    · simp
    · simp only; rw [(ramp_fixed (k + 1) it b r.P hs).1]; simp
    · simp only; rw [(ramp_fixed (k + 1) it a r.ct hs).1]; simp
  · intro x hx
    obtain ⟨i, hi, rfl⟩ := List.mem_map.1 hx
    have hi' := (List.mem_range.1 hi).le
    have b1 := ramp_bounds steps it b r.P hs hb hb1 hP i hi'
    have b2 := ramp_bounds steps it a r.ct hs ha ha1 hct i hi'
    simp only
    refine ⟨?_, ?_, ?_, ?_⟩ <;> split_ifs <;> first | exact b1.1 | exact b1.2 | exact b2.1 | exact b2.2 | assumption | exact le_rfl
  · intro w hw
    have hsP : Increasing (l.map (fun x => (x.ws, x.P)) ++ (r :: rest).map (fun x => (x.ws, x.P))) := by
      unfold Increasing; rw [← List.map_append, List.pairwise_map]; exact hsorted
    have hiP : Increasing (rp.map (fun x => (x.ws, x.P)) ++ (r :: rest).map (fun x => (x.ws, x.P))) := by
      unfold Increasing; rw [← List.map_append, List.pairwise_map]; exact hinc
    have hsC : Increasing (l.map (fun x => (x.ws, x.ct)) ++ (r :: rest).map (fun x => (x.ws, x.ct))) := by
      unfold Increasing; rw [← List.map_append, List.pairwise_map]; exact hsorted
    have hiC : Increasing (rp.map (fun x => (x.ws, x.ct)) ++ (r :: rest).map (fun x => (x.ws, x.ct))) := by
      unfold Increasing; rw [← List.map_append, List.pairwise_map]; exact hinc
    rw [List.map_cons] at hsP hiP hsC hiC
    constructor
    · unfold tabP
      rw [List.map_append, List.map_append, List.map_cons, interp_append _ _ _ hiP _ hw, interp_append _ _ _ hsP _ hw]
    · unfold tabCt
      rw [List.map_append, List.map_append, List.map_cons, interp_append _ _ _ hiC _ hw, interp_append _ _ _ hsC _ hw]

/-- **C35 (cut-in, finding).** If no row reaches cut-in, the call raises an IndexError that its error handling does not cover. -/
theorem C35_no_cutin_raises (cast : ℝ → ℝ) (modCt modP : Bool) (hm : modCt = true ∨ modP = true) (steps it : ℕ) (a b : ℝ) (rows : List Row)
    (h : ∀ x ∈ rows, Idle modCt modP x) : modifyCutin cast modCt modP steps it a b rows = none := by
  simp only [← belowCutin_iff] at h
  unfold modifyCutin
  have hd : rows.dropWhile (belowCutin modCt modP) = [] := by
    clear hm
    induction rows with
    | nil => rfl
    | cons x l ih =>
      rw [List.dropWhile_cons_of_pos (h x (by simp))]
      exact ih (fun y hy => h y (by simp [hy]))
  rw [if_pos (by simpa using hm), hd]

/-- **C35 (cut-in, finding).** If the wind speed column of the table has an integer type, the ramp of the thrust coefficient is
zero: the cut-in is not made continuous. -/
theorem C35_integer_wind_speeds_no_ramp (steps it : ℕ) (a top : ℝ) (h0 : 0 ≤ top) (h1 : top < 1) (i : ℕ) : ramp truncInt steps it a top i = 0 := by
  have ht : truncInt top = 0 := by
    unfold truncInt
    rw [Int.floor_eq_zero_iff.2 ⟨h0, h1⟩]; simp
  have hz : truncInt 0 = 0 := by simp [truncInt]
  unfold ramp
  induction it generalizing i with
  | zero => simp [ht]
  | succ n ih =>
    rw [Function.iterate_succ_apply']
    generalize (smooth truncInt steps a)^[n] (fun i => if i = steps then truncInt top else 0) = g at ih
    unfold smooth
    split_ifs
    · rw [ih, ih]; simp [hz]
    · exact ih i

/-- **C35 (cut-in, finding).** Asking for a continuous thrust curve only also changes the power curve: here the power at 2.9 m/s, with
cut-in at 3 m/s, falls from 90 to less than 40. -/
theorem C35_power_changed_by_ct_cutin :
    let rows : List Row := [⟨2, 0, 0⟩, ⟨3, 100, 0.8⟩, ⟨25, 100, 0.8⟩]
    interp (tabP rows) 2.9 = 90 ∧
    ∃ new, modifyCutin id true false 20 0 0.55 0.55 rows = some new ∧ interp (tabP new) 2.9 < 40 := by
  intro rows
  constructor
  · simp only [rows, tabP, List.map, interp, interpFrom]
    norm_num
  · have h1 : belowCutin true false ⟨2, 0, 0⟩ = true := by simp [belowCutin]; norm_num
    have h2 : belowCutin true false ⟨3, 100, 0.8⟩ = false := by simp [belowCutin]; norm_num
    refine ⟨_, by simp only [modifyCutin, rows, List.dropWhile, h1, h2]; norm_num; rfl, ?_⟩
    have hp : ∀ i : ℕ, ((i : ℝ) * (3 / 20)) = i * 0.15 := by intro i; norm_num
    simp only [tabP, List.map_append, List.map_map, List.map_cons, List.map_nil]
    have hr : List.range 20 = List.range 19 ++ [19] := by rfl
    rw [hr, List.map_append, List.append_assoc]
    simp only [List.map_cons, List.map_nil, List.singleton_append]
    rw [C35_between_samples]
    · simp; norm_num
    · unfold Increasing
      rw [List.pairwise_append]
      refine ⟨?_, ?_, ?_⟩
      · rw [List.pairwise_map]
        refine List.pairwise_lt_range.imp ?_
        intro i j hij
        have : (i : ℝ) < j := by exact_mod_cast hij
        simp; linarith
      · simp; norm_num
      · intro x hx y hy
        obtain ⟨i, hi, rfl⟩ := List.mem_map.1 hx
        have : (i : ℝ) < 19 := by exact_mod_cast List.mem_range.1 hi
        simp at hy ⊢
        rcases hy with rfl | rfl | rfl <;> norm_num <;> linarith
    · simp; norm_num
    · norm_num

/-! ### Other table types -/

/-- **C35 (finding).** `CpCtFile` never works: the table it hands over has no thrust column. -/
theorem C35_cpct_file_fails : loadable cpCtColumns = false := by decide

/-- **C35 (finding).** `WsRho2PCtFromTwo` looks up the thrust at the wind speed meant for the power. -/
theorem C35_wsrho_thrust_wind_speed (loP hiP loCt hiCt : ℝ) (tP tCt : ℝ → ℝ → ℝ) (wsP wsCt rho : ℝ)
    (h1 : loP ≤ wsP ∧ wsP ≤ hiP) (h2 : loCt ≤ wsP ∧ wsP ≤ hiCt) (h3 : loP ≤ wsCt ∧ wsCt ≤ hiP) :
    wsRho loP hiP loCt hiCt tP tCt none none wsP wsCt rho none = some (tP wsP rho, tCt wsP rho) := by
  unfold wsRho interpnBounded yawFactor
  simp [h1, h2, h3]

/-- **C35 (finding).** `WsRho2PCtFromTwo` raises if the yaw correction moves a wind speed of the table below its range. -/
theorem C35_wsrho_yaw_raises (loP hiP loCt hiCt : ℝ) (tP tCt : ℝ → ℝ → ℝ) (p wsP wsCt rho y : ℝ)
    (h1 : loP ≤ wsP ∧ wsP ≤ hiP) (h2 : wsP * yawFactor (some p) (1 / 3) (some y) < loP) :
    wsRho loP hiP loCt hiCt tP tCt (some p) none wsP wsCt rho (some y) = none := by
  unfold wsRho interpnBounded
  rw [if_pos h1, if_neg (fun h => absurd h2 (not_lt.2 h.1))]
  rfl

/- concrete cases -/
example : Increasing [(3, 100), (4, 200), (25, 200)] := by unfold Increasing; simp; norm_num
example : interp [(3, 100), (4, 200), (25, 200)] 3.5 = 150 := by simp only [interp, interpFrom]; norm_num
example : ([⟨4, 1, 1⟩, ⟨3, 0, 0⟩] : List Row).Perm [⟨3, 0, 0⟩, ⟨4, 1, 1⟩] ∧ (([⟨4, 1, 1⟩, ⟨3, 0, 0⟩] : List Row).map Row.ws).Nodup := by
  constructor
  · exact List.Perm.swap _ _ _
  · simp

end Foxes.Props.PowerCurve
