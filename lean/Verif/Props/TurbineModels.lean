import Verif.Model.TurbineModels
import Verif.Props.Cubic
import Verif.Props.WindDir
/-
C33 (PowerMask), C34 (SetFarmVars), C44 (SectorManagement).
-/
namespace Foxes.Props.TurbineModels
open Foxes.TurbineModels

/-! ### C34 -/

section
variable {K : Type} [DecidableEq K]

/-- `order s` is a downwind order of `n` turbines in every state, and `inv s` its inverse. -/
structure IsOrder (nS n : Nat) (order inv : Nat → Nat → Nat) : Prop where
  lt : ∀ s < nS, ∀ i < n, order s i < n
  ilt : ∀ s < nS, ∀ t < n, inv s t < n
  left : ∀ s < nS, ∀ i < n, inv s (order s i) = i
  right : ∀ s < nS, ∀ t < n, order s (inv s t) = t

/-- Specification: user data where given (and selected), the old value elsewhere. -/
def spec (user old : Nat → Nat → Option K) (sel : Nat → Nat → Bool) (s t : Nat) : Option K :=
  if sel s t && (user s t).isSome then user s t else old s t

/-- **C34 (finding, post-rotor).** In a run that starts with `InitFarmData`, the result for turbine `t` is not the user's entry for `t`
but that for the turbine `order t`: the entry at the position in the user's data given by `t`'s number taken as a downwind position. -/
theorem C34_post_rotor_permuted_twice (nS n : Nat) (order inv : Nat → Nat → Nat) (h : IsOrder nS n order inv)
    (user old : Nat → Nat → Option K) (hu : ∃ s < nS, ∃ t < n, npNe (user s t) (user 0 0) = true) (s : Nat) (hs : s < nS) (t : Nat) (ht : t < n) :
    postRotorRun nS n order inv user old (fun _ _ => true) s t
      = (if (user s (order s t)).isSome then user s (order s t) else old s (inv s t)) := by
  have hd : (List.range nS).any (fun s => (List.range n).any (fun t => npNe (user s t) (user 0 0))) = true := by
    obtain ⟨s, hs, t, ht, hne⟩ := hu
    rw [List.any_eq_true]
    refine ⟨s, by simp [hs], ?_⟩
    rw [List.any_eq_true]
    exact ⟨t, by simp [ht], hne⟩
  unfold postRotorRun reported setFarmVars reorderMdata
  simp only [hd, if_true]
  simp [h.right s hs t ht]

theorem reorder_id (nS n : Nat) (order : Nat → Nat → Nat) (user : Nat → Nat → Option K) (s t : Nat) (h : order s t = t) :
    reorderMdata nS n order user s t = user s t := by
  unfold reorderMdata
  split
  · simp only [h]
  · rfl

/-- **C34 (when post-rotor data are right).** A post-rotor `SetFarmVars` is right for all user data without missing values, if and only if
the downwind order is the farm order in every state. -/
theorem C34_post_rotor_right_iff (nS n : Nat) (order inv : Nat → Nat → Nat) (h : IsOrder nS n order inv) (a b : K) (hab : a ≠ b) :
    (∀ user : Nat → Nat → Option K, (∀ s t, (user s t).isSome) → ∀ s < nS, ∀ t < n,
      postRotorRun nS n order inv user (fun _ _ => none) (fun _ _ => true) s t = user s t) ↔
    ∀ s < nS, ∀ t < n, order s t = t := by
  constructor
  · intro hall s hs t ht
    by_contra hne
    let user : Nat → Nat → Option K := fun s' t' => if s' = s ∧ t' = t then some a else some b
    have hsome : ∀ s t, (user s t).isSome := by intro s' t'; simp only [user]; split <;> rfl
    by_cases hz : npNe (user s (order s t)) (user 0 0) = true ∨ npNe (user s t) (user 0 0) = true
    · have hu : ∃ s < nS, ∃ t < n, npNe (user s t) (user 0 0) = true := by
        rcases hz with hz | hz
        · exact ⟨s, hs, order s t, h.lt s hs t ht, hz⟩
        · exact ⟨s, hs, t, ht, hz⟩
      have e := C34_post_rotor_permuted_twice nS n order inv h user (fun _ _ => none) hu s hs t ht
      rw [hall user hsome s hs t ht, if_pos (hsome _ _)] at e
      simp [user, hne] at e
      exact hab e
    · rw [not_or] at hz
      have h1 : user s (order s t) = some b := by simp [user, hne]
      have h2 : user s t = some a := by simp [user]
      have h3 : user 0 0 = some a ∨ user 0 0 = some b := by simp only [user]; split <;> simp
      rcases h3 with h3 | h3
      · apply hz.1; rw [h1, h3]; simp [npNe, Ne.symm hab]
      · apply hz.2; rw [h2, h3]; simp [npNe, hab]
  · intro hid user hsome s hs t ht
    have hinv : inv s t = t := by have := h.left s hs t ht; rw [hid s hs t ht] at this; exact this
    unfold postRotorRun reported setFarmVars
    simp only [Bool.true_and, Bool.false_eq_true, if_false, hinv, hid s hs t ht, reorder_id nS n order user s t (hid s hs t ht), hsome, if_true]

/-- **C34 (finding, pre-rotor).** A variable set before the rotor model (other than X, Y, H, D) is reported for the wrong turbine: the
result for turbine `t` is the user's entry number `inv t`, the downwind position of `t`. -/
theorem C34_pre_rotor_not_reordered (order inv : Nat → Nat → Nat) (user old : Nat → Nat → Option K) (s t : Nat) :
    preRotorRun inv order user old (fun _ _ => true) s t
      = (if (user s (inv s t)).isSome then user s (inv s t) else old s (inv s t)) := by
  unfold preRotorRun reported setFarmVars
  simp

/-- **C34 (partial).** The model is right, for all data including missing values and for both kinds, in states where the downwind order is
the farm order; and constant data are always right. -/
theorem C34_right_partial (nS n : Nat) (order inv : Nat → Nat → Nat) (h : IsOrder nS n order inv)
    (user old : Nat → Nat → Option K) (sel : Nat → Nat → Bool) (s : Nat) (hs : s < nS) (hid : ∀ t < n, order s t = t) (t : Nat) (ht : t < n) :
    postRotorRun nS n order inv user old sel s t = spec user old sel s t ∧ preRotorRun inv order user old sel s t = spec user old sel s t := by
  have hinv : inv s t = t := by have := h.left s hs t ht; rw [hid t ht] at this; exact this
  constructor
  · unfold postRotorRun reported setFarmVars spec
    simp only [Bool.false_eq_true, if_false, hinv, hid t ht, reorder_id nS n order user s t (hid t ht)]
  · unfold preRotorRun reported setFarmVars spec
    simp [hinv]

/-- the case of constant data -/
theorem C34_constant_data (nS n : Nat) (order inv : Nat → Nat → Nat) (old : Nat → Nat → Option K) (v : K) (s t : Nat) :
    postRotorRun nS n order inv (fun _ _ => some v) old (fun _ _ => true) s t = some v ∧
    preRotorRun inv order (fun _ _ => some v) old (fun _ _ => true) s t = some v := by
  constructor
  · unfold postRotorRun reported setFarmVars reorderMdata
    split <;> simp
  · simp [preRotorRun, reported, setFarmVars]

/-- **C34 (finding, D and H).** After `SetFarmVars` was given rotor diameters or hub heights for `N` states, the calculation of a chunk
of `n` states raises, unless the chunk contains all states. -/
theorem C34_diameter_needs_one_chunk (N n : Nat) (src : Nat → Option K) (hn : 1 ≤ n) (hN : n ≤ N) :
    (assignPerState n N src).isSome ↔ n = N := by
  unfold assignPerState
  constructor
  · intro h
    split at h
    · omega
    · split at h
      · omega
      · simp at h
  · intro h; simp [h]

/- three turbines in a cyclic order: turbine 0 gets the entry of turbine 1 -/
example : IsOrder 1 3 (fun _ i => (i + 1) % 3) (fun _ i => (i + 2) % 3) :=
  ⟨fun _ _ i _ => Nat.mod_lt _ (by omega), fun _ _ i _ => Nat.mod_lt _ (by omega), fun _ _ i _ => by omega, fun _ _ i _ => by omega⟩
example : postRotorRun 1 3 (fun _ i => (i + 1) % 3) (fun _ i => (i + 2) % 3) (fun _ t => some (10 * t)) (fun _ _ => none) (fun _ _ => true) 0 0 = some 10 := by
  decide

end

/-! ### C33 -/

open scoped Classical in
/-- **C33 (power).** After the mask: nothing changes for entries which are not selected or have no limit; for a limit below the rated
power the new power is the smaller of old power and limit; for a limit above it is the limit whenever the old power is close to (or above)
rated power, and unchanged otherwise. -/
theorem C33_power (ct2a : ℝ → ℝ) (f : ℝ) (sel : Bool) (P ct : ℝ) (maxP : Option ℝ) (pr pl ws rho D : ℝ) :
    (sel = false ∨ maxP = none ∨ maxP = some pr → powerMask ct2a f sel P ct maxP pr pl ws rho D = (P, some ct)) ∧
    (∀ m, sel = true → maxP = some m → m < pr → (powerMask ct2a f sel P ct maxP pr pl ws rho D).1 = min P m ∧
      (P ≤ m → powerMask ct2a f sel P ct maxP pr pl ws rho D = (P, some ct))) ∧
    (∀ m, sel = true → maxP = some m → pr < m → (powerMask ct2a f sel P ct maxP pr pl ws rho D).1 = if pr - pl < P then m else P) := by
  refine ⟨?_, ?_, ?_⟩
  · intro h
    unfold powerMask
    rw [if_neg]
    rintro ⟨hs, m, hm, hc⟩
    rcases h with h | h | h
    · rw [h] at hs; exact absurd hs (by simp)
    · rw [h] at hm; exact absurd hm (by simp)
    · rw [h] at hm
      have : pr = m := by simpa using hm
      subst this
      rcases hc with hc | hc <;> exact lt_irrefl _ hc.1
  · intro m hs hm hlt
    by_cases hP : P > m
    · have ha : maskActive sel P maxP pr pl := ⟨hs, m, hm, Or.inl ⟨hlt, hP⟩⟩
      refine ⟨?_, fun h => absurd hP (not_lt.2 h)⟩
      unfold powerMask
      rw [if_pos ha]
      simp [hm, min_eq_right hP.le]
    · have ha : ¬ maskActive sel P maxP pr pl := by
        rintro ⟨_, m', hm', hc⟩
        rw [hm] at hm'
        have : m = m' := by simpa using hm'
        subst this
        rcases hc with hc | hc
        · exact hP hc.2
        · exact lt_asymm hlt hc.1
      have e : powerMask ct2a f sel P ct maxP pr pl ws rho D = (P, some ct) := by unfold powerMask; rw [if_neg ha]
      exact ⟨by rw [e, min_eq_left (not_lt.1 hP)], fun _ => e⟩
  · intro m hs hm hlt
    split_ifs with hP
    · have ha : maskActive sel P maxP pr pl := ⟨hs, m, hm, Or.inr ⟨hlt, hP⟩⟩
      unfold powerMask
      rw [if_pos ha]; simp [hm]
    · have ha : ¬ maskActive sel P maxP pr pl := by
        rintro ⟨_, m', hm', hc⟩
        rw [hm] at hm'
        have : m = m' := by simpa using hm'
        subst this
        rcases hc with hc | hc
        · exact lt_asymm hlt hc.1
        · exact hP hc.2
      unfold powerMask
      rw [if_neg ha]

lemma cp_disc (c : ℝ) : Foxes.Cubic.disc (-8 / 4) (4 / 4) (-c / 4) ≤ 0 ↔ 0 ≤ c ∧ c ≤ 16 / 27 := by
  have e : Foxes.Cubic.disc (-8 / 4) (4 / 4) (-c / 4) = (c * (c - 16 / 27)) / 64 := by
    unfold Foxes.Cubic.disc Foxes.Cubic.Q Foxes.Cubic.R; ring
  rw [e]
  constructor
  · intro h
    have h' : c * (c - 16 / 27) ≤ 0 := by linarith
    constructor <;> nlinarith
  · rintro ⟨h1, h2⟩
    have : c * (c - 16 / 27) ≤ 0 := mul_nonpos_of_nonneg_of_nonpos h1 (by linarith)
    linarith

lemma cp_q : Foxes.Cubic.Q ((-8 : ℝ) / 4) (4 / 4) ≠ 0 := by unfold Foxes.Cubic.Q; norm_num

lemma mem_roots (c : ℝ) (h0 : 0 ≤ c) (h1 : c ≤ 16 / 27) (x : ℝ) :
    x ∈ Foxes.Cubic.found (Foxes.Cubic.cubicRoots (-c) 4 (-8) 4) ↔ cpOfA x = c := by
  rw [← Foxes.Props.Cubic.C45_roots_partial (-c) 4 (-8) 4 (by norm_num) ((cp_disc c).2 ⟨h0, h1⟩) cp_q]
  unfold Foxes.Props.Cubic.poly cpOfA
  constructor <;> intro h <;> linarith

lemma cp_strictMono (a b : ℝ) (h0 : 0 ≤ a) (h1 : b ≤ 1 / 3) (h : a < b) : cpOfA a < cpOfA b := by
  unfold cpOfA
  have e : 4 * b ^ 3 - 8 * b ^ 2 + 4 * b - (4 * a ^ 3 - 8 * a ^ 2 + 4 * a) = 4 * (b - a) * (b ^ 2 + a * b + a ^ 2 - 2 * (a + b) + 1) := by ring
  have k : 0 < b ^ 2 + a * b + a ^ 2 - 2 * (a + b) + 1 := by nlinarith [sq_nonneg (b - 1 / 3), sq_nonneg (a - 1 / 3)]
  have : 0 < 4 * (b - a) * (b ^ 2 + a * b + a ^ 2 - 2 * (a + b) + 1) := by
    have : 0 < b - a := by linarith
    positivity
  linarith

/-- **C33 (thrust).** For every ratio of power coefficient and efficiency up to the Betz limit, the new induction factor exists, lies in
`(0, 1/3]` and reproduces the ratio: momentum theory holds, with the efficiency of the turbine unchanged. -/
theorem C33_induction (c : ℝ) (h0 : 0 < c) (h1 : c ≤ 16 / 27) : ∃ a, newInduction c = some a ∧ 0 < a ∧ a ≤ 1 / 3 ∧ cpOfA a = c := by
  have hroots := mem_roots c h0.le h1
  -- a root in (0, 1/3]
  have hcont : ContinuousOn cpOfA (Set.Icc 0 (1 / 3)) := by unfold cpOfA; fun_prop
  obtain ⟨a0, ⟨ha0, ha1⟩, hac⟩ := intermediate_value_Icc (by norm_num : (0 : ℝ) ≤ 1 / 3) hcont
    (show c ∈ Set.Icc (cpOfA 0) (cpOfA (1 / 3)) by unfold cpOfA; constructor <;> norm_num <;> linarith)
  have hpos : 0 < a0 := by
    refine lt_of_le_of_ne ha0 ?_
    rintro rfl
    unfold cpOfA at hac; norm_num at hac; linarith
  unfold newInduction minPos
  set l := (Foxes.Cubic.found (Foxes.Cubic.cubicRoots (-c) 4 (-8) 4)).filter (fun x => 0 < x) with hl
  have hmem : a0 ∈ l := by rw [hl, List.mem_filter]; exact ⟨(hroots a0).2 hac, by simpa using hpos⟩
  cases hm : l.min? with
  | none => rw [List.min?_eq_none_iff] at hm; rw [hm] at hmem; simp at hmem
  | some a =>
    rw [List.min?_eq_some_iff] at hm
    have ha : a ∈ l := hm.1
    rw [hl, List.mem_filter] at ha
    exact ⟨a, rfl, by simpa using ha.2, (hm.2 a0 hmem).trans ha1, (hroots a).1 ha.1⟩

/-- **C33 (derating lowers the thrust).** If the turbine operates at an induction `a ≤ 1/3` and a smaller power is requested, the new
thrust coefficient is that of an induction `a' < a` with power ratio `cp(a')/cp(a) = m/P`; in particular it is smaller. -/
theorem C33_derating (ct2a : ℝ → ℝ) (f : ℝ) (P ct m pr pl ws rho D : ℝ) (hf : 0 < f) (hws : 0 < ws) (hrho : 0 < rho) (hD : 0 < D)
    (hm0 : 0 < m) (hmP : m < P) (hmr : m < pr) (ha0 : 0 < ct2a ct) (ha1 : ct2a ct ≤ 1 / 3) :
    ∃ a', powerMask ct2a f true P ct (some m) pr pl ws rho D = (m, some (4 * a' * (1 - a'))) ∧ 0 < a' ∧ a' < ct2a ct ∧
      cpOfA a' / cpOfA (ct2a ct) = m / P ∧ 4 * a' * (1 - a') < 4 * ct2a ct * (1 - ct2a ct) := by
  have hW : 0 < windPower ws rho D := by unfold windPower; positivity
  set a := ct2a ct with hadef
  have hcp : 0 < cpOfA a := by
    have := cp_strictMono 0 a le_rfl ha1 ha0
    have h00 : cpOfA 0 = 0 := by unfold cpOfA; norm_num
    linarith
  have hcp1 : cpOfA a ≤ 16 / 27 := by
    have : cpOfA (1 / 3) = 16 / 27 := by unfold cpOfA; norm_num
    rcases ha1.eq_or_lt with h | h
    · rw [h]; linarith
    · have := cp_strictMono a (1 / 3) ha0.le le_rfl h; linarith
  have hP : 0 < P := by linarith
  have hratio : m / windPower ws rho D * f / (P / windPower ws rho D * f / cpOfA a) = m / P * cpOfA a := by
    field_simp
  have hc0 : 0 < m / P * cpOfA a := by positivity
  have hlt : m / P < 1 := by rw [div_lt_one hP]; exact hmP
  have hc1 : m / P * cpOfA a < cpOfA a := by nlinarith
  obtain ⟨a', h1, h2, h3, h4⟩ := C33_induction _ hc0 (hc1.le.trans hcp1)
  have hlt' : a' < a := by
    by_contra h
    rcases (not_lt.1 h).eq_or_lt with he | he
    · rw [← he] at h4; linarith
    · have := cp_strictMono a a' ha0.le h3 he; linarith
  refine ⟨a', ?_, h2, hlt', ?_, ?_⟩
  · unfold powerMask
    rw [if_pos ⟨rfl, m, rfl, Or.inl ⟨hmr, hmP⟩⟩]
    simp only [Option.getD_some, ← hadef]
    rw [hratio, h1]; rfl
  · rw [h4]; field_simp
  · nlinarith

/-- **C33 (finding).** If the requested power exceeds the Betz limit at the turbine's efficiency, no thrust coefficient is found (the
code returns minus infinity). -/
theorem C33_beyond_betz_not_finite (c : ℝ) (h : 16 / 27 < c) : newInduction c = none := by
  have hD : 0 < Foxes.Cubic.disc (-8 / 4) (4 / 4) (-c / 4) := by
    rw [← not_le, cp_disc]; intro hc; linarith [hc.2]
  have := (Foxes.Props.Cubic.C45_single_root_missing (-c) 4 (-8) 4 (by norm_num) (Or.inl ⟨hD, cp_q⟩)).1
  unfold newInduction minPos
  rw [this]; rfl

/-- **C33 (thrust at the changed power).** Wherever the power is changed to `m`, by limiting or by boosting, and the turbine operates at
an induction between 0 and 1: the new thrust coefficient depends only on the ratio `m/P` and the old one. If the power coefficient
`m/P·cp(a)` stays below the Betz limit it is that of the induction `a' ≤ 1/3` with exactly this power coefficient, otherwise it is not
finite. Wind speed, air density, rotor diameter and the unit of power are irrelevant, as long as they are positive. -/
theorem C33_thrust_of_ratio (ct2a : ℝ → ℝ) (f : ℝ) (P ct m pr pl ws rho D : ℝ) (hf : 0 < f) (hws : 0 < ws) (hrho : 0 < rho)
    (hD : 0 < D) (hP : 0 < P) (hm0 : 0 < m) (h : (m < pr ∧ m < P) ∨ (pr < m ∧ pr - pl < P)) (ha0 : 0 < ct2a ct) (ha1 : ct2a ct < 1) :
    (m / P * (4 * ct2a ct * (1 - ct2a ct) ^ 2) ≤ 16 / 27 →
      ∃ a', powerMask ct2a f true P ct (some m) pr pl ws rho D = (m, some (4 * a' * (1 - a'))) ∧ 0 < a' ∧ a' ≤ 1 / 3 ∧
        4 * a' * (1 - a') ^ 2 = m / P * (4 * ct2a ct * (1 - ct2a ct) ^ 2)) ∧
    (16 / 27 < m / P * (4 * ct2a ct * (1 - ct2a ct) ^ 2) → powerMask ct2a f true P ct (some m) pr pl ws rho D = (m, none)) := by
  have hW : 0 < windPower ws rho D := by unfold windPower; positivity
  have ec : ∀ x, cpOfA x = 4 * x * (1 - x) ^ 2 := fun x => by unfold cpOfA; ring
  have hcp : 0 < cpOfA (ct2a ct) := by
    rw [ec]; have : 0 < 1 - ct2a ct := by linarith
    positivity
  have hratio : m / windPower ws rho D * f / (P / windPower ws rho D * f / cpOfA (ct2a ct)) = m / P * cpOfA (ct2a ct) := by
    field_simp
  have hact : maskActive true P (some m) pr pl := ⟨rfl, m, rfl, h⟩
  rw [← ec]
  constructor
  · intro hc
    obtain ⟨a', h1, h2, h3, h4⟩ := C33_induction _ (by positivity) hc
    refine ⟨a', ?_, h2, h3, by rw [← ec, h4]⟩
    unfold powerMask
    rw [if_pos hact]
    simp only [Option.getD_some]
    rw [hratio, h1]; rfl
  · intro hc
    unfold powerMask
    rw [if_pos hact]
    simp only [Option.getD_some]
    rw [hratio, C33_beyond_betz_not_finite _ hc]; rfl

/-- **C33 (finding).** The rated power is taken at the array position (downwind order) in a list given in farm order: a turbine with
5000 kW rated power, limited to 4000 kW and producing 3500 kW, keeps its power if looked up correctly (second part); at the position of a
3000 kW turbine it is taken as one to be boosted, and its power is raised to 4000 kW (first part). -/
theorem C33_rated_power_of_wrong_turbine (ct2a : ℝ → ℝ) (f ct ws rho D : ℝ) :
    (powerMask ct2a f true 3500 ct (some 4000) 3000 100 ws rho D).1 = 4000 ∧
    (powerMask ct2a f true 3500 ct (some 4000) 5000 100 ws rho D).1 = 3500 := by
  constructor
  · rw [(C33_power ct2a f true 3500 ct (some 4000) 3000 100 ws rho D).2.2 4000 rfl rfl (by norm_num)]; norm_num
  · rw [((C33_power ct2a f true 3500 ct (some 4000) 5000 100 ws rho D).2.1 4000 rfl rfl (by norm_num)).1]; norm_num

example : (0 : ℝ) < 0.3 ∧ (0.3 : ℝ) ≤ 16 / 27 := by norm_num
example : (0 : ℝ) < 10 ∧ (0 : ℝ) < 1.2 ∧ (0 : ℝ) < 126 ∧ (0 : ℝ) < 3000 ∧ (3000 : ℝ) < 5000 ∧ (0 : ℝ) < 0.2 ∧ (0.2 : ℝ) ≤ 1 / 3 := by norm_num

/-! ### C44 -/

/-- Specification: direction `d` lies in the sector which starts at `lo` and extends clockwise by `width`. -/
def inArc (period lo width d : ℝ) : Prop := ∃ k : ℤ, lo ≤ d + period * k ∧ d + period * k < lo + width

/-- **C44 (sectors).** For limits given as start `lo` and end `lo + width`, of any size and any turn, with `0 ≤ width < period`: a value is
recognised exactly if it lies in the sector, also across north. -/
theorem C44_sector_partial (period : ℝ) (hp : 0 < period) (t : Nat) (lo width v d : ℝ) (h0 : 0 ≤ width) (h1 : width < period) :
    inSector period (loadRow period ⟨t, lo, lo + width, v⟩) d ↔ inArc period lo width d := by
  unfold inSector loadRow inArc
  simp only
  obtain ⟨k1, e1⟩ := Foxes.Props.WindDir.npMod_congr lo period
  obtain ⟨k2, e2⟩ := Foxes.Props.WindDir.npMod_congr (lo + width) period
  obtain ⟨k3, e3⟩ := Foxes.Props.WindDir.npMod_congr d period
  have r1 := Foxes.Props.WindDir.npMod_range lo period hp
  have r2 := Foxes.Props.WindDir.npMod_range (lo + width) period hp
  have r3 := Foxes.Props.WindDir.npMod_range d period hp
  set L := Foxes.WindDir.npMod lo period
  set H := Foxes.WindDir.npMod (lo + width) period
  set X := Foxes.WindDir.npMod d period
  -- H = L + width or L + width - period
  have hH : H = L + width + period * ((k2 - k1 : ℤ) : ℝ) := by push_cast; linarith
  have hk : k2 - k1 = 0 ∨ k2 - k1 = -1 := by
    have a : -2 < (k2 - k1 : ℤ) := by
      by_contra hc
      have : ((k2 - k1 : ℤ) : ℝ) ≤ -2 := by exact_mod_cast not_lt.1 hc
      nlinarith
    have b : (k2 - k1 : ℤ) < 1 := by
      by_contra hc
      have : (1 : ℝ) ≤ ((k2 - k1 : ℤ) : ℝ) := by exact_mod_cast not_lt.1 hc
      nlinarith
    omega
  -- inArc in terms of X and L
  have harc : (∃ k : ℤ, lo ≤ d + period * k ∧ d + period * k < lo + width) ↔ (L ≤ X ∧ X < L + width) ∨ (L ≤ X + period ∧ X + period < L + width) := by
    constructor
    · rintro ⟨k, hk1, hk2⟩
      have g1 : L ≤ X + period * ((k + k1 - k3 : ℤ) : ℝ) := by push_cast; linarith
      have g2 : X + period * ((k + k1 - k3 : ℤ) : ℝ) < L + width := by push_cast; linarith
      have : k + k1 - k3 = 0 ∨ k + k1 - k3 = 1 := by
        have a : -1 < (k + k1 - k3 : ℤ) := by
          by_contra hc
          have : ((k + k1 - k3 : ℤ) : ℝ) ≤ -1 := by exact_mod_cast not_lt.1 hc
          nlinarith
        have b : (k + k1 - k3 : ℤ) < 2 := by
          by_contra hc
          have : (2 : ℝ) ≤ ((k + k1 - k3 : ℤ) : ℝ) := by exact_mod_cast not_lt.1 hc
          nlinarith
        omega
      rcases this with h | h <;> rw [h] at g1 g2 <;> push_cast at g1 g2
      · left; constructor <;> linarith
      · right; constructor <;> linarith
    · rintro (⟨g1, g2⟩ | ⟨g1, g2⟩)
      · refine ⟨k3 - k1, ?_, ?_⟩ <;> push_cast <;> linarith
      · refine ⟨k3 - k1 + 1, ?_, ?_⟩ <;> push_cast <;> linarith
  rw [harc]
  rcases hk with h | h <;> rw [h] at hH <;> push_cast at hH
  · rw [if_neg (by linarith)]
    constructor
    · rintro ⟨g1, g2⟩; left; constructor <;> linarith
    · rintro (⟨g1, g2⟩ | ⟨g1, g2⟩)
      · constructor <;> linarith
      · exfalso; linarith
  · rw [if_pos (by linarith)]
    constructor
    · rintro (g | g)
      · left; constructor <;> linarith
      · right; constructor <;> linarith
    · rintro (⟨g1, g2⟩ | ⟨g1, g2⟩)
      · left; linarith
      · right; linarith

/-- **C44 (finding).** A sector over the full circle, such as 0 to 360 degrees, is never recognised. -/
theorem C44_full_circle_never (period : ℝ) (hp : 0 < period) (t : Nat) (lo v d : ℝ) :
    ¬ inSector period (loadRow period ⟨t, lo, lo + period, v⟩) d := by
  unfold inSector loadRow
  simp only
  have : Foxes.WindDir.npMod (lo + period) period = Foxes.WindDir.npMod lo period := by
    have := Foxes.Props.WindDir.npMod_periodic lo period hp 1
    simpa using this
  rw [this, if_neg (lt_irrefl _)]
  rintro ⟨a, b⟩
  linarith

open scoped Classical in
/-- **C44 (setting).** At array position `i` the value of the last table row with number `i` whose sector contains the wind direction is
set; without such a row the old value stays. -/
theorem C44_last_matching_row (period : ℝ) (rows : List Row) (wd old : Nat → ℝ) (i : Nat) :
    sectorManagement period rows wd old i =
      (((rows.filter (fun r => r.turbine = i ∧ inSector period (loadRow period r) (wd i))).getLast?).map Row.value).getD (old i) := by
  unfold sectorManagement
  induction rows using List.reverseRecOn with
  | nil => simp
  | append_singleton l r ih =>
    rw [List.foldl_append, List.filter_append]
    simp only [List.foldl_cons, List.foldl_nil]
    by_cases h : r.turbine = i ∧ inSector period (loadRow period r) (wd i)
    · have h' : r.turbine = i ∧ inSector period (loadRow period r) (wd r.turbine) := by rw [h.1]; exact ⟨rfl, h.2⟩
      rw [if_pos h', List.filter_cons_of_pos (by simpa using h)]
      simp
    · have h' : ¬ (r.turbine = i ∧ inSector period (loadRow period r) (wd r.turbine)) := by
        rintro ⟨a, b⟩; rw [a] at b; exact h ⟨a, b⟩
      rw [if_neg h', ih, List.filter_cons_of_neg (by simpa using h)]
      simp

/-- **C44 (finding).** The row number, which names a turbine of the farm, is used as position in downwind order: with turbine 1 upstream
of turbine 0, the rule for turbine 0 changes the value of turbine 1 (position 0) and not of turbine 0 (position 1). -/
theorem C44_wrong_turbine :
    sectorManagement 360 [⟨0, 200, 300, 7⟩] (fun _ => 270) (fun _ => 5) 0 = 7 ∧
    sectorManagement 360 [⟨0, 200, 300, 7⟩] (fun _ => 270) (fun _ => 5) 1 = 5 := by
  have h : inSector 360 (loadRow 360 ⟨0, 200, 200 + 100, 7⟩) 270 := by
    rw [C44_sector_partial 360 (by norm_num) 0 200 100 7 270 (by norm_num) (by norm_num)]
    exact ⟨0, by norm_num, by norm_num⟩
  have e : (200 : ℝ) + 100 = 300 := by norm_num
  rw [e] at h
  constructor
  · simp [sectorManagement, h]
  · simp [sectorManagement]

/- a sector across north -/
example : inArc 360 350 20 5 := ⟨1, by norm_num, by norm_num⟩

/-! ### C48 -/

/-- **C48 (thrust).** The new thrust coefficient reproduces the thrust: `T = 1/2 rho A ct ws^2` with the rotor area `A`; it is the only
one that does. Entries that are not selected keep their value. -/
theorem C48_thrust2ct (T rho D ws old : ℝ) (hr : 0 < rho) (hD : 0 < D) (hw : 0 < ws) :
    (∀ ct, T = 1 / 2 * rho * (Real.pi * D ^ 2 / 4) * ct * ws ^ 2 ↔ ct = thrust2ct T rho D ws old true) ∧
    thrust2ct T rho D ws old false = old := by
  have hpi := Real.pi_pos
  constructor
  · intro ct
    unfold thrust2ct
    rw [if_pos rfl, eq_div_iff (by positivity)]
    constructor <;> intro h <;> nlinarith
  · simp [thrust2ct]

/-- **C48 (wake growth).** The wake growth parameter is `kTI * TI + kb` for selected entries, unchanged otherwise; it grows with the
turbulence intensity if `kTI` is not negative, and `kb` is its value without turbulence. -/
theorem C48_kTI (kti kb ti ti' old : ℝ) :
    kTI kti kb ti old false = old ∧ kTI kti kb 0 old true = kb ∧
    kTI kti kb ti' old true - kTI kti kb ti old true = kti * (ti' - ti) ∧
    (0 ≤ kti → ti ≤ ti' → kTI kti kb ti old true ≤ kTI kti kb ti' old true) := by
  unfold kTI
  refine ⟨by simp, by simp, by simp; ring, fun h h' => ?_⟩
  simp only [if_true]
  nlinarith

example : thrust2ct 1000 1.2 100 10 0 true = 2 * 1000 / (1.2 * (Real.pi * (100 / 2) ^ 2) * 10 ^ 2) := by simp [thrust2ct]

end Foxes.Props.TurbineModels
