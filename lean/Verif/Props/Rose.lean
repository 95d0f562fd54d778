import Verif.Model.Rose
import Verif.Props.Slice
import Mathlib.Algebra.BigOperators.Intervals
import Mathlib.Algebra.Order.BigOperators.Group.Finset
/-
C66: wind roses.
-/
namespace Foxes.Props.Rose
open Foxes.Rose
open scoped BigOperators

noncomputable section
open scoped Classical

/-! ### Specification -/

/-- A value is in bin number `j`: from the lower bound (included) to the upper bound (excluded, except for the last bin). -/
def InBin (edges : List (WithTop ℝ)) (x : ℝ) (j : ℕ) : Prop :=
  ∃ h : j + 1 < edges.length, edges[j] ≤ (x : WithTop ℝ) ∧ ((x : WithTop ℝ) < edges[j + 1] ∨ (j + 2 = edges.length ∧ (x : WithTop ℝ) = edges[j + 1]))

/-- A wind direction is in sector number `k` of `n`: up to full turns it is not further than half a sector from the direction `k * 360 / n`
(the upper limit excluded). -/
def InSector (n : ℕ) (wd : ℝ) (k : ℕ) : Prop :=
  k < n ∧ ∃ m : ℤ, k * (360 / n) - 360 / n / 2 ≤ wd - 360 * m ∧ wd - 360 * m < k * (360 / n) + 360 / n / 2

/-! ### Bins -/

lemma count_le : ∀ (edges : List (WithTop ℝ)), edges.Pairwise (· ≤ ·) → ∀ (x : WithTop ℝ) (k : ℕ) (hk : k < edges.length),
    edges[k] ≤ x ↔ k < (edges.filter fun e => decide (e ≤ x)).length
  | [], _, _, k, hk => by simp at hk
  | a :: l, h, x, k, hk => by
    obtain ⟨h1, h2⟩ := List.pairwise_cons.1 h
    by_cases ha : a ≤ x
    · rw [List.filter_cons_of_pos (by simpa using ha), List.length_cons]
      cases k with
      | zero => simpa using ha
      | succ k =>
        have := count_le l h2 x k (by simpa using hk)
        simpa using this
    · have he : ∀ b ∈ l, ¬ b ≤ x := fun b hb hbx => ha ((h1 b hb).trans hbx)
      have hn : (a :: l).filter (fun e => decide (e ≤ x)) = [] := by
        rw [List.filter_eq_nil_iff]
        intro b hb
        rcases List.mem_cons.1 hb with rfl | hb
        · simpa using ha
        · simpa using he b hb
      rw [hn]
      simp only [List.length_nil, Nat.not_lt_zero, iff_false]
      cases k with
      | zero => simpa using ha
      | succ k => simpa using he _ (List.getElem_mem _)

lemma filter_length_le (edges : List (WithTop ℝ)) (p : WithTop ℝ → Bool) : (edges.filter p).length ≤ edges.length := List.length_filter_le _ _

/-- C66: the bin of a value: for increasing bounds a value is counted in bin `j` exactly if it is in that bin. -/
theorem C66_bin (edges : List (WithTop ℝ)) (h : edges.Pairwise (· ≤ ·)) (x : ℝ) (j : ℕ) : binOf edges x = some j ↔ InBin edges x j := by
  have hc := count_le edges h (x : WithTop ℝ)
  have hle := filter_length_le edges (fun e => decide (e ≤ (x : WithTop ℝ)))
  simp only [binOf]
  set c := (edges.filter fun e => decide (e ≤ (x : WithTop ℝ))).length with hcdef
  by_cases hl : edges.getLast? = some (x : WithTop ℝ)
  · have hne : edges ≠ [] := by rintro rfl; simp at hl
    have hpos : 0 < edges.length := List.length_pos_of_ne_nil hne
    have hlast : edges[edges.length - 1] = (x : WithTop ℝ) := by
      rw [List.getLast?_eq_getElem?, List.getElem?_eq_getElem (by omega)] at hl
      simpa using hl
    have hcl : c = edges.length := by
      have := (hc (edges.length - 1) (by omega)).1 (by rw [hlast])
      omega
    simp only [hl, if_true, hcl]
    constructor
    · intro hj
      split_ifs at hj with h0
      simp only [Option.some.injEq] at hj
      refine ⟨by omega, ?_, Or.inr ⟨by omega, ?_⟩⟩
      · rw [hc]; omega
      · rw [← hlast]; congr 1; omega
    · rintro ⟨h1, h2, h3⟩
      have hj : j + 2 = edges.length := by
        rcases h3 with h3 | h3
        · exfalso
          have : edges[j + 1] ≤ (x : WithTop ℝ) := by rw [hc]; omega
          exact absurd h3 (not_lt.2 this)
        · exact h3.1
      rw [if_neg (by omega)]
      simp only [Option.some.injEq]
      omega
  · simp only [hl, if_false]
    constructor
    · intro hj
      split_ifs at hj with h0
      simp only [Option.some.injEq] at hj
      refine ⟨by omega, ?_, Or.inl ?_⟩
      · rw [hc]; omega
      · rw [lt_iff_not_ge, hc]; omega
    · rintro ⟨h1, h2, h3⟩
      have h3' : (x : WithTop ℝ) < edges[j + 1] := by
        rcases h3 with h3 | ⟨h3, h4⟩
        · exact h3
        · exfalso
          apply hl
          rw [List.getLast?_eq_getElem?, List.getElem?_eq_getElem (by omega), h4]
          congr 2
          omega
      rw [lt_iff_not_ge, hc] at h3'
      rw [hc] at h2
      rw [if_neg (by omega)]
      simp only [Option.some.injEq]
      omega

/-- C66: a value is counted in some bin exactly if it is between the first and the last bound. -/
theorem C66_in_range (edges : List (WithTop ℝ)) (h : edges.Pairwise (· ≤ ·)) (x : ℝ) (h2 : 1 < edges.length) :
    (∃ j, InBin edges x j) ↔ edges[0] ≤ (x : WithTop ℝ) ∧ (x : WithTop ℝ) ≤ edges[edges.length - 1] := by
  have hc := count_le edges h (x : WithTop ℝ)
  have hp := List.pairwise_iff_getElem.1 h
  constructor
  · rintro ⟨j, h1, h2, h3⟩
    constructor
    · rcases Nat.eq_zero_or_pos j with rfl | hj
      · exact h2
      · exact (hp 0 j (by omega) (by omega) hj).trans h2
    · have h4 : (x : WithTop ℝ) ≤ edges[j + 1] := by
        rcases h3 with h3 | h3
        · exact h3.le
        · exact h3.2.le
      rcases Nat.lt_or_ge (j + 1) (edges.length - 1) with hj | hj
      · exact h4.trans (hp (j + 1) (edges.length - 1) (by omega) (by omega) hj)
      · have : j + 1 = edges.length - 1 := by omega
        simpa [this] using h4
  · rintro ⟨h3, h4⟩
    have hle := filter_length_le edges (fun e => decide (e ≤ (x : WithTop ℝ)))
    rw [hc] at h3
    rcases Nat.lt_or_ge ((edges.filter fun e => decide (e ≤ (x : WithTop ℝ))).length) edges.length with hlt | hge
    · refine ⟨(edges.filter fun e => decide (e ≤ (x : WithTop ℝ))).length - 1, by omega, ?_, Or.inl ?_⟩
      · rw [hc]; omega
      · rw [lt_iff_not_ge, hc]; omega
    · have hx : edges[edges.length - 1] ≤ (x : WithTop ℝ) := by rw [hc]; omega
      refine ⟨edges.length - 2, by omega, ?_, Or.inr ⟨by omega, ?_⟩⟩
      · rw [hc]; omega
      · have := le_antisymm h4 hx
        rw [this]; congr 1; omega

/-! ### Sectors -/

lemma delta_pos {n : ℕ} (hn : 0 < n) : 0 < delta n := by
  have : (0 : ℝ) < n := by exact_mod_cast hn
  exact div_pos (by norm_num) this

lemma n_delta {n : ℕ} (hn : 0 < n) : n * delta n = 360 := by
  have : (n : ℝ) ≠ 0 := by exact_mod_cast hn.ne'
  simp [delta]; field_simp

/-- C66: the bounds of the `n` sectors: from half a sector before north in steps of the sector width. -/
theorem C66_sector_bounds (n : ℕ) (hn : 0 < n) : (wdBins n).length = n + 1 ∧ ∀ k (hk : k < (wdBins n).length), (wdBins n)[k] = k * (360 / n) - 360 / n / 2 := by
  have hp := delta_pos hn
  have e : ⌈(360 - -(delta n) / 2) / delta n⌉₊ = n + 1 := by
    have h1 : (360 - -(delta n) / 2) / delta n = n + 1 / 2 := by
      rw [div_eq_iff hp.ne']
      linear_combination -(n_delta hn)
    rw [h1, Nat.ceil_eq_iff (by omega)]
    push_cast
    constructor
    · linarith
    · linarith
  constructor
  · simp [wdBins, arange, e]
  · intro k hk
    simp only [wdBins, arange, List.getElem_map, List.getElem_range]
    simp only [delta]; ring

/-- C66: the coordinates of the wind rose are the centres of the `n` sectors. -/
theorem C66_sector_centres (n : ℕ) (hn : 0 < n) : (arange 0 360 (delta n)).length = n ∧ ∀ k (hk : k < (arange 0 360 (delta n)).length), (arange 0 360 (delta n))[k] = k * (360 / n) := by
  have hp := delta_pos hn
  have e : ⌈(360 - 0) / delta n⌉₊ = n := by
    have h1 : (360 - 0) / delta n = n := by
      rw [div_eq_iff hp.ne']
      linear_combination -(n_delta hn)
    rw [h1, Nat.ceil_natCast]
  constructor
  · rw [arange, List.length_map, List.length_range, e]
  · intro k hk
    simp [arange, delta]

lemma wdEdges_sorted (n : ℕ) (hn : 0 < n) : ((wdBins n).map (fun x : ℝ => (x : WithTop ℝ))).Pairwise (· ≤ ·) := by
  rw [List.pairwise_map]
  rw [List.pairwise_iff_getElem]
  intro i j hi hj hij
  obtain ⟨-, h⟩ := C66_sector_bounds n hn
  rw [h i hi, h j hj, WithTop.coe_le_coe]
  have hp := delta_pos hn
  have : (i : ℝ) < j := by exact_mod_cast hij
  simp only [delta] at hp
  nlinarith

/-- C66: wind directions from 0 to 360 degrees are counted in the sector they belong to. (More generally from half a sector before 0 to half a sector before 720.) -/
theorem C66_sector (n : ℕ) (hn : 0 < n) (wd : ℝ) (h0 : -(360 / n / 2) ≤ wd) (h1 : wd < 720 - 360 / n / 2) (k : ℕ) :
    binOf ((wdBins n).map (fun x : ℝ => (x : WithTop ℝ))) (wrap n wd) = some k ↔ InSector n wd k := by
  obtain ⟨hl, hb⟩ := C66_sector_bounds n hn
  have hp := delta_pos hn
  have hnd := n_delta hn
  rw [C66_bin _ (wdEdges_sorted n hn)]
  have hw : -(delta n / 2) ≤ wrap n wd ∧ wrap n wd < 360 - delta n / 2 ∧ ∃ m : ℤ, wrap n wd = wd - 360 * m := by
    have : (360 : ℝ) / n = delta n := rfl
    rw [this] at h0 h1
    unfold wrap
    split_ifs with h
    · exact ⟨by linarith, by linarith, 1, by push_cast; ring⟩
    · exact ⟨h0, by linarith, 0, by simp⟩
  obtain ⟨hw0, hw1, m0, hm0⟩ := hw
  have hdef : (360 : ℝ) / n = delta n := rfl
  constructor
  · rintro ⟨h2, h3, h4⟩
    simp only [List.length_map, hl, List.getElem_map, WithTop.coe_le_coe, WithTop.coe_lt_coe, WithTop.coe_inj] at h2 h3 h4
    rw [hb k (by omega), hdef] at h3
    rw [hb (k + 1) (by omega), hdef] at h4
    push_cast at h4
    refine ⟨by omega, m0, ?_, ?_⟩
    · rw [hdef, ← hm0]; exact h3
    · rw [hdef, ← hm0]
      rcases h4 with h4 | ⟨h4, h5⟩
      · linarith
      · exfalso
        have hk : ((k : ℝ) + 1) * delta n = 360 := by
          have : ((k + 1 : ℕ) : ℝ) = n := by exact_mod_cast (by omega : k + 1 = n)
          push_cast at this
          rw [this]; exact hnd
        linarith
  · rintro ⟨hk, m, h2, h3⟩
    rw [hdef] at h2 h3
    have hkr : (k : ℝ) + 1 ≤ n := by exact_mod_cast hk
    have hm : m = m0 := by
      have e : wd - 360 * m = wrap n wd + 360 * ((m0 : ℝ) - m) := by rw [hm0]; ring
      rw [e] at h2 h3
      have a1 : (k : ℝ) * delta n + delta n ≤ 360 := by
        have : ((k : ℝ) + 1) * delta n ≤ n * delta n := mul_le_mul_of_nonneg_right hkr hp.le
        linarith
      have a2 : 0 ≤ (k : ℝ) * delta n := by positivity
      have b1 : (m0 : ℝ) - m < 1 := by nlinarith
      have b2 : -1 < (m0 : ℝ) - m := by nlinarith
      have c1 : m0 - m < 1 := by exact_mod_cast b1
      have c2 : -1 < m0 - m := by exact_mod_cast b2
      omega
    rw [hm, ← hm0] at h2 h3
    refine ⟨by simp [hl, hk], ?_, Or.inl ?_⟩
    · simp only [List.getElem_map, WithTop.coe_le_coe]
      rw [hb k (by omega), hdef]; exact h2
    · simp only [List.getElem_map, WithTop.coe_lt_coe]
      rw [hb (k + 1) (by omega), hdef]; push_cast; linarith

/-- C66: every wind direction belongs to exactly one sector. -/
theorem C66_one_sector (n : ℕ) (hn : 0 < n) (wd : ℝ) : ∃! k, InSector n wd k := by
  have hp := delta_pos hn
  have hnd := n_delta hn
  have hdef : (360 : ℝ) / n = delta n := rfl
  set q : ℤ := ⌊wd / delta n + 1 / 2⌋ with hq
  have q1 := Int.floor_le (wd / delta n + 1 / 2)
  have q2 := Int.lt_floor_add_one (wd / delta n + 1 / 2)
  rw [← hq] at q1 q2
  have hwd : wd = wd / delta n * delta n := by field_simp
  have hn' : (0 : ℤ) < n := by exact_mod_cast hn
  have key : ∀ k : ℕ, InSector n wd k ↔ k < n ∧ ∃ m : ℤ, q = k + n * m := by
    intro k
    simp only [InSector, hdef]
    refine and_congr_right fun _ => exists_congr fun m => ?_
    have e360 : (360 : ℝ) * m = n * m * delta n := by rw [← hnd]; ring
    constructor
    · rintro ⟨a, b⟩
      rw [hq, Int.floor_eq_iff]
      push_cast
      rw [hwd, e360] at a b
      constructor
      · have : ((k : ℝ) + n * m) * delta n ≤ (wd / delta n + 1 / 2) * delta n := by nlinarith
        exact le_of_mul_le_mul_right this hp
      · have : (wd / delta n + 1 / 2) * delta n < ((k : ℝ) + n * m + 1) * delta n := by nlinarith
        exact lt_of_mul_lt_mul_right this hp.le
    · intro e
      have e' : (q : ℝ) = k + n * m := by exact_mod_cast e
      rw [e'] at q1 q2
      have a := mul_le_mul_of_nonneg_right q1 hp.le
      have b := mul_lt_mul_of_pos_right q2 hp
      rw [hwd, e360]
      constructor <;> nlinarith
  refine ⟨(q % n).toNat, ?_, ?_⟩
  · simp only [key]
    have h1 := Int.emod_nonneg q hn'.ne'
    have h2 := Int.emod_lt_of_pos q hn'
    refine ⟨by omega, q / n, ?_⟩
    rw [Int.toNat_of_nonneg h1, Int.emod_add_mul_ediv]
  · intro k hk
    obtain ⟨hk1, m, hk2⟩ := (key k).1 hk
    have : q % n = k := by
      rw [hk2, Int.add_mul_emod_self_left]
      exact Int.emod_eq_of_lt (by omega) (by exact_mod_cast hk1)
    rw [this]; simp

/-- C66 (false of the code: all directions are counted): directions below minus half a sector, or from half a sector before 720, are counted nowhere. -/
theorem C66_lost_directions (n : ℕ) (hn : 0 < n) (wd : ℝ) (h : wd < -(360 / n / 2) ∨ 720 - 360 / n / 2 < wd) :
    binOf ((wdBins n).map (fun x : ℝ => (x : WithTop ℝ))) (wrap n wd) = none := by
  obtain ⟨hl, hb⟩ := C66_sector_bounds n hn
  have hp := delta_pos hn
  have hnd := n_delta hn
  have hdef : (360 : ℝ) / n = delta n := rfl
  have hd : delta n ≤ 360 := by
    have : (1 : ℝ) ≤ n := by exact_mod_cast hn
    nlinarith
  by_contra hne
  obtain ⟨k, hk⟩ := Option.ne_none_iff_exists'.1 hne
  rw [C66_bin _ (wdEdges_sorted n hn)] at hk
  have := (C66_in_range _ (wdEdges_sorted n hn) (wrap n wd) (by simp [hl, hn])).1 ⟨k, hk⟩
  simp only [List.length_map, List.getElem_map, WithTop.coe_le_coe] at this
  rw [hb 0 (by omega), hb _ (by omega), hl, hdef] at this
  simp only [Nat.add_sub_cancel] at this
  rw [hdef] at h
  obtain ⟨a, b⟩ := this
  norm_num at a
  rw [hnd] at b
  unfold wrap at a b
  split_ifs at a b <;> rcases h with h | h <;> linarith

/-! ### Columns -/

/-- The results are those of `S` states: all variables have `S` rows. -/
def HasStates (r : Results) (S : ℕ) : Prop := ∀ v q, r.vars.lookup v = some q → q.rows.length = S

/-- The data of variable `v` at state `s`, column `c`. -/
def At (r : Results) (v : String) (c s : ℕ) (x : ℝ) : Prop :=
  ∃ q, r.vars.lookup v = some q ∧ ∃ row, q.rows[s]? = some row ∧ row[c]? = some x

lemma column_spec {rows : List (List ℝ)} {t : ℕ} {l : List ℝ} (h : column rows t = some l) :
    l.length = rows.length ∧ ∀ s (hs : s < rows.length), rows[s][t]? = l[s]? := by
  obtain ⟨h1, h2⟩ := Foxes.Props.Slice.mapM_get h
  exact ⟨h1, h2⟩

/-- C66: the data come from the column of the requested turbine (farm results) or of the requested point (point results). -/
theorem C66_values {r : Results} {S : ℕ} (hS : HasStates r S) {v : String} {t p : ℕ} {l : List ℝ} (h : values r v t p = some l) :
    l.length = S ∧ ∀ s (hs : s < l.length), At r v (if r.points then p else t) s l[s] := by
  simp only [values, Option.bind_eq_bind, Option.bind_eq_some_iff] at h
  obtain ⟨q, hq, h⟩ := h
  have h' : column q.rows (if r.points then p else t) = some l := by
    cases hd : q.dims <;> simp [hd] at h <;> exact h
  obtain ⟨h1, h2⟩ := column_spec h'
  have hq' := hS v q hq
  refine ⟨by omega, fun s hs => ⟨q, hq, q.rows[s], List.getElem?_eq_getElem (by omega), ?_⟩⟩
  rw [h2 s (by omega), List.getElem?_eq_getElem hs]

/-- C66: the weights come from the column of the turbine or point if they depend on turbines or points. -/
theorem C66_weights {r : Results} {S : ℕ} (hS : HasStates r S) {t p : ℕ} {l : List ℝ} (h : weights r t p = some l) :
    ∃ q c, r.vars.lookup "weight" = some q ∧ (q.dims = .state ∧ c = 0 ∨ q.dims = .stateTurbine ∧ c = t ∨ q.dims = .statePoint ∧ c = p) ∧
      l.length = S ∧ ∀ s (hs : s < l.length), At r "weight" c s l[s] := by
  simp only [weights, Option.bind_eq_bind, Option.bind_eq_some_iff] at h
  obtain ⟨q, hq, h⟩ := h
  have hq' := hS _ q hq
  have key : ∀ c, column q.rows c = some l → l.length = S ∧ ∀ s (hs : s < l.length), At r "weight" c s l[s] := by
    intro c h'
    obtain ⟨h1, h2⟩ := column_spec h'
    refine ⟨by omega, fun s hs => ⟨q, hq, q.rows[s], List.getElem?_eq_getElem (by omega), ?_⟩⟩
    rw [h2 s (by omega), List.getElem?_eq_getElem hs]
  cases hd : q.dims
  · simp only [hd] at h; exact ⟨q, 0, hq, by simp [hd], key 0 h⟩
  · simp only [hd] at h; exact ⟨q, t, hq, by simp [hd], key t h⟩
  · simp only [hd] at h; exact ⟨q, p, hq, by simp [hd], key p h⟩
  · simp [hd] at h

/-- C66: no wind rose without weights of the states, or with weights of other dimensions. -/
theorem C66_needs_weights (r : Results) (n : ℕ) (wsVar wdVar : String) (wsBins : List ℝ) (t p : ℕ) (inf : Bool)
    (h : r.vars.lookup "weight" = none ∨ ∃ q, r.vars.lookup "weight" = some q ∧ q.dims = .other) :
    getData r n wsVar wsBins wdVar t p inf = none := by
  have : weights r t p = none := by
    rcases h with h | ⟨q, h, hd⟩
    · simp [weights, h]
    · simp [weights, h, hd]
  simp [getData, this]

/-- C66: point results are used if requested, or if there are no farm results. -/
theorem C66_choose (farm point : Option (List (String × RVar))) (use : Bool) :
    (∀ r, choose farm point use = some r → if use = true ∨ farm = none then r.points = true ∧ point = some r.vars else r.points = false ∧ farm = some r.vars) ∧
    (choose farm point use = none ↔ if use then point = none else farm = none ∧ point = none) := by
  cases farm <;> cases point <;> cases use <;> simp [choose]

/-! ### Frequencies -/

lemma zipWith_sum {α β : Type} (f : α → β → ℝ) : ∀ (a : List α) (b : List β), a.length = b.length → ∀ (g : ℕ → ℝ),
    (∀ s (h1 : s < a.length) (h2 : s < b.length), f a[s] b[s] = g s) → (List.zipWith f a b).sum = ∑ s ∈ Finset.range a.length, g s
  | [], [], _, g, _ => by simp
  | x :: a, y :: b, h, g, hg => by
    rw [List.zipWith_cons_cons, List.sum_cons, List.length_cons, Finset.sum_range_succ', add_comm]
    congr 1
    · apply zipWith_sum f a b (by simpa using h)
      intro s h1 h2
      exact hg (s + 1) (by simpa using h1) (by simpa using h2)
    · exact hg 0 (by simp) (by simp)
  | [], _ :: _, h, _, _ => by simp at h
  | _ :: _, [], h, _, _ => by simp at h

lemma hist_eq (e1 e2 : List (WithTop ℝ)) (wd ws w : List ℝ) {S : ℕ} (h1 : wd.length = S) (h2 : ws.length = S) (h3 : w.length = S) (i j : ℕ) :
    hist e1 e2 wd ws w i j = ∑ s ∈ Finset.range S, if binOf e1 (wd.getD s 0) = some i ∧ binOf e2 (ws.getD s 0) = some j then w.getD s 0 else 0 := by
  unfold hist
  have := zipWith_sum (fun (p : ℝ × ℝ) w => if binOf e1 p.1 = some i ∧ binOf e2 p.2 = some j then w else 0) (wd.zip ws) w (by simp; omega)
    (fun s => if binOf e1 (wd.getD s 0) = some i ∧ binOf e2 (ws.getD s 0) = some j then w.getD s 0 else 0) (by
      intro s ha hb
      simp only [List.length_zip] at ha
      have a1 : wd.getD s 0 = wd[s]'(by omega) := by simp [List.getD_eq_getElem?_getD, List.getElem?_eq_getElem (show s < wd.length by omega)]
      have a2 : ws.getD s 0 = ws[s]'(by omega) := by simp [List.getD_eq_getElem?_getD, List.getElem?_eq_getElem (show s < ws.length by omega)]
      have a3 : w.getD s 0 = w[s] := by simp [List.getD_eq_getElem?_getD, List.getElem?_eq_getElem hb]
      rw [a1, a2, a3]
      simp)
  rw [show (wd.zip ws).length = S by simp; omega] at this
  exact this

/-- The bounds of the wind speed bins. -/
def bounds (wsBins : List ℝ) (inf : Bool) : List (WithTop ℝ) := wsBins.map (fun x : ℝ => (x : WithTop ℝ)) ++ (if inf then [⊤] else [])

lemma getData_some {r : Results} {n : ℕ} {wsVar wdVar : String} {wsBins : List ℝ} {t p : ℕ} {inf : Bool} {d : RoseData}
    (h : getData r n wsVar wsBins wdVar t p inf = some d) :
    0 < n ∧ (bounds wsBins inf).Pairwise (· ≤ ·) ∧ bounds wsBins inf ≠ [] ∧ ∃ w ws wd, weights r t p = some w ∧ values r wsVar t p = some ws ∧ values r wdVar t p = some wd ∧
      d = ⟨arange 0 360 (delta n), mids (bounds wsBins inf), wdBins n, bounds wsBins inf, fun i j =>
        100 * hist ((wdBins n).map (fun x : ℝ => (x : WithTop ℝ))) (bounds wsBins inf) (wd.map (wrap n)) ws w i j⟩ := by
  simp only [getData, Option.bind_eq_bind, Option.bind_eq_some_iff] at h
  obtain ⟨w, hw, ws, hws, wd, hwd, h⟩ := h
  by_cases hn : n = 0
  · simp [hn] at h
  rw [if_neg hn] at h
  change (if (!edgesOk (bounds wsBins inf)) = true then none else _) = some d at h
  by_cases he' : edgesOk (bounds wsBins inf) = true
  swap
  · rw [if_pos (by simpa using he')] at h
    simp at h
  rw [if_neg (by simpa using he')] at h
  simp only [edgesOk, Bool.and_eq_true, decide_eq_true_eq, Bool.not_eq_true', List.isEmpty_eq_false_iff] at he'
  simp only [pure, Option.some.injEq] at h
  exact ⟨by omega, he'.2, he'.1, w, ws, wd, hw, hws, hwd, h.symm⟩

/-- C66: the frequency of sector `i` and wind speed bin `j` is 100 times the sum of the weights of the states with wind direction in the
sector and wind speed in the bin. -/
theorem C66_frequency {r : Results} {S : ℕ} (hS : HasStates r S) {n : ℕ} {wsVar wdVar : String} {wsBins : List ℝ} {t p : ℕ} {inf : Bool} {d : RoseData}
    (h : getData r n wsVar wsBins wdVar t p inf = some d) :
    ∃ w ws wd, weights r t p = some w ∧ values r wsVar t p = some ws ∧ values r wdVar t p = some wd ∧ d.wsBounds = bounds wsBins inf ∧
      ((∀ x ∈ wd, -(360 / n / 2) ≤ x ∧ x < 720 - 360 / n / 2) → ∀ i j, d.freq i j = 100 * ∑ s ∈ (Finset.range S).filter
        (fun s => InSector n (wd.getD s 0) i ∧ InBin (bounds wsBins inf) (ws.getD s 0) j), w.getD s 0) := by
  obtain ⟨hn, hb, -, w, ws, wd, hw, hws, hwd, rfl⟩ := getData_some h
  refine ⟨w, ws, wd, hw, hws, hwd, rfl, fun hr i j => ?_⟩
  have l1 := (C66_values hS hws).1
  have l2 := (C66_values hS hwd).1
  obtain ⟨_, _, _, _, l3, _⟩ := C66_weights hS hw
  simp only
  rw [hist_eq _ _ _ _ _ (by simpa using l2) l1 l3, Finset.sum_filter]
  congr 1
  apply Finset.sum_congr rfl
  intro s hs
  have hs' : s < wd.length := by rw [l2]; exact Finset.mem_range.1 hs
  have hx : (wd.map (wrap n)).getD s 0 = wrap n (wd.getD s 0) := by
    simp [List.getD_eq_getElem?_getD, List.getElem?_eq_getElem hs']
  have hm : wd.getD s 0 ∈ wd := by
    rw [List.getD_eq_getElem?_getD, List.getElem?_eq_getElem hs']; simp
  obtain ⟨x1, x2⟩ := hr _ hm
  rw [hx]
  have h1 := C66_sector n hn _ x1 x2 i
  have h2 := C66_bin _ hb (ws.getD s 0) j
  congr 1
  rw [h1, h2]

/-- C66: the frequencies are not negative if the weights are not. -/
theorem C66_nonneg {r : Results} {S : ℕ} (hS : HasStates r S) {n : ℕ} {wsVar wdVar : String} {wsBins : List ℝ} {t p : ℕ} {inf : Bool} {d : RoseData}
    (h : getData r n wsVar wsBins wdVar t p inf = some d) (hw : ∀ w, weights r t p = some w → ∀ x ∈ w, 0 ≤ x) (i j : ℕ) : 0 ≤ d.freq i j := by
  obtain ⟨hn, hb, -, w, ws, wd, hw', hws, hwd, rfl⟩ := getData_some h
  have l1 := (C66_values hS hws).1
  have l2 := (C66_values hS hwd).1
  obtain ⟨_, _, _, _, l3, _⟩ := C66_weights hS hw'
  simp only
  rw [hist_eq _ _ _ _ _ (by simpa using l2) l1 l3]
  apply mul_nonneg (by norm_num)
  apply Finset.sum_nonneg
  intro s hs
  split_ifs
  · rw [List.getD_eq_getElem?_getD, List.getElem?_eq_getElem (by rw [l3]; exact Finset.mem_range.1 hs)]
    exact hw w hw' _ (List.getElem_mem _)
  · exact le_refl _

lemma inBin_unique {edges : List (WithTop ℝ)} (h : edges.Pairwise (· ≤ ·)) {x : ℝ} {j k : ℕ} (h1 : InBin edges x j) (h2 : InBin edges x k) : j = k := by
  rw [← C66_bin edges h] at h1 h2
  rw [h1] at h2
  simpa using h2

/-- C66: all frequencies together are 100 times the sum of the weights of the states with wind speed between the first and the last bound. -/
theorem C66_total {r : Results} {S : ℕ} (hS : HasStates r S) {n : ℕ} {wsVar wdVar : String} {wsBins : List ℝ} {t p : ℕ} {inf : Bool} {d : RoseData}
    (h : getData r n wsVar wsBins wdVar t p inf = some d) (h2 : 1 < (bounds wsBins inf).length) :
    ∃ w ws wd, weights r t p = some w ∧ values r wsVar t p = some ws ∧ values r wdVar t p = some wd ∧
      ((∀ x ∈ wd, -(360 / n / 2) ≤ x ∧ x < 720 - 360 / n / 2) → ∑ i ∈ Finset.range n, ∑ j ∈ Finset.range ((bounds wsBins inf).length - 1), d.freq i j =
        100 * ∑ s ∈ (Finset.range S).filter (fun s => (bounds wsBins inf)[0] ≤ ((ws.getD s 0 : ℝ) : WithTop ℝ) ∧
          ((ws.getD s 0 : ℝ) : WithTop ℝ) ≤ (bounds wsBins inf)[(bounds wsBins inf).length - 1]), w.getD s 0) := by
  obtain ⟨hn, hb, -⟩ := getData_some h
  obtain ⟨w, ws, wd, hw, hws, hwd, -, hf⟩ := C66_frequency hS h
  refine ⟨w, ws, wd, hw, hws, hwd, fun hr => ?_⟩
  simp only [hf hr, ← Finset.mul_sum]
  congr 1
  simp only [Finset.sum_filter]
  rw [Finset.sum_congr rfl (fun i _ => Finset.sum_comm), Finset.sum_comm]
  apply Finset.sum_congr rfl
  intro s _
  obtain ⟨k, hk, hku⟩ := C66_one_sector n hn (wd.getD s 0)
  rw [Finset.sum_eq_single_of_mem k (Finset.mem_range.2 hk.1)]
  swap
  · intro i _ hi
    apply Finset.sum_eq_zero
    intro j _
    rw [if_neg]
    rintro ⟨h1, -⟩
    exact hi (hku i h1)
  have hir := C66_in_range (bounds wsBins inf) hb (ws.getD s 0) h2
  by_cases hin : ∃ j, InBin (bounds wsBins inf) (ws.getD s 0) j
  · rw [if_pos (hir.1 hin)]
    obtain ⟨j, hj⟩ := hin
    obtain ⟨hjl, hj'⟩ := id hj
    rw [Finset.sum_eq_single_of_mem j (Finset.mem_range.2 (by omega))]
    · rw [if_pos ⟨hk, hj⟩]
    · intro j' _ hne
      rw [if_neg]
      rintro ⟨-, h1⟩
      exact hne (inBin_unique hb h1 hj)
  · rw [if_neg (fun hc => hin (hir.2 hc))]
    apply Finset.sum_eq_zero
    intro j _
    rw [if_neg]
    rintro ⟨-, h1⟩
    exact hin ⟨j, h1⟩

/-- C66: with an upper bin to infinity, wind speeds from the first bound on and weights that sum up to one the frequencies sum up to 100. -/
theorem C66_hundred {r : Results} {S : ℕ} (hS : HasStates r S) {n : ℕ} {wsVar wdVar : String} {w0 : ℝ} {wsBins : List ℝ} {t p : ℕ} {d : RoseData}
    (h : getData r n wsVar (w0 :: wsBins) wdVar t p true = some d)
    (hws : ∀ ws, values r wsVar t p = some ws → ∀ x ∈ ws, w0 ≤ x)
    (hwd : ∀ wd, values r wdVar t p = some wd → ∀ x ∈ wd, 0 ≤ x ∧ x ≤ 360)
    (hw : ∀ w, weights r t p = some w → ∑ s ∈ Finset.range S, w.getD s 0 = 1) :
    ∑ i ∈ Finset.range n, ∑ j ∈ Finset.range (wsBins.length + 1), d.freq i j = 100 := by
  obtain ⟨hn, -⟩ := getData_some h
  obtain ⟨w, ws, wd, h1, h2, h3, ht⟩ := C66_total hS h (by simp [bounds])
  have e : (bounds (w0 :: wsBins) true).length - 1 = wsBins.length + 1 := by simp [bounds]
  have hp := delta_pos hn
  have hd : delta n ≤ 360 := by
    have : (1 : ℝ) ≤ n := by exact_mod_cast hn
    have := n_delta hn
    nlinarith
  have hdef : (360 : ℝ) / n = delta n := rfl
  have := ht (fun x hx => by
    obtain ⟨a, b⟩ := hwd wd h3 x hx
    rw [hdef]
    constructor <;> linarith)
  rw [← e, this, Finset.filter_true_of_mem, hw w h1, mul_one]
  intro s hs
  have l1 := (C66_values hS h2).1
  have hs' : s < ws.length := by rw [l1]; exact Finset.mem_range.1 hs
  have hm : ws.getD s 0 ∈ ws := by
    rw [List.getD_eq_getElem?_getD, List.getElem?_eq_getElem hs']; simp
  constructor
  · have := hws ws h2 _ hm
    simpa [bounds] using this
  · simp [bounds]

/-- C66 (false of the code: the bins are "[a, b)" as written in the legend): without the upper bin to infinity the upper bound of the last bin is counted in that bin. -/
theorem C66_last_bound (wsBins : List ℝ) (a b : ℝ) (h : (bounds (wsBins ++ [a, b]) false).Pairwise (· ≤ ·)) :
    InBin (bounds (wsBins ++ [a, b]) false) b wsBins.length := by
  refine ⟨by simp [bounds], ?_, Or.inr ⟨by simp [bounds], by simp [bounds, List.getElem_append]⟩⟩
  have := List.pairwise_iff_getElem.1 h wsBins.length (wsBins.length + 1) (by simp [bounds]) (by simp [bounds]) (by omega)
  simpa [bounds, List.getElem_append] using this

/-- C66: with the upper bin to infinity every bin is "[a, b)". -/
theorem C66_half_open (wsBins : List ℝ) (x : ℝ) (j : ℕ) : InBin (bounds wsBins true) x j ↔
    ∃ h : j + 1 < (bounds wsBins true).length, (bounds wsBins true)[j] ≤ (x : WithTop ℝ) ∧ (x : WithTop ℝ) < (bounds wsBins true)[j + 1] := by
  constructor
  · rintro ⟨h, h1, h2⟩
    refine ⟨h, h1, ?_⟩
    rcases h2 with h2 | ⟨h2, h3⟩
    · exact h2
    · have hl : j + 1 = wsBins.length := by simp [bounds] at h2; omega
      have : (bounds wsBins true)[j + 1] = ⊤ := by simp [bounds, hl, List.getElem_append]
      rw [this] at h3
      exact absurd h3 (WithTop.coe_ne_top)
  · rintro ⟨h, h1, h2⟩
    exact ⟨h, h1, Or.inl h2⟩

/-! ### Means in bins -/

/-- The states of sector `i` and bin `j`. -/
def members (S n : ℕ) (edges : List (WithTop ℝ)) (wd ws : List ℝ) (i j : ℕ) : Finset ℕ :=
  (Finset.range S).filter (fun s => InSector n (wd.getD s 0) i ∧ InBin edges (ws.getD s 0) j)

lemma hist_members {n S : ℕ} (hn : 0 < n) {edges : List (WithTop ℝ)} (hb : edges.Pairwise (· ≤ ·)) {wd ws w : List ℝ} (h1 : wd.length = S)
    (h2 : ws.length = S) (h3 : w.length = S) (hr : ∀ x ∈ wd, -(360 / n / 2) ≤ x ∧ x < 720 - 360 / n / 2) (i j : ℕ) :
    hist ((wdBins n).map (fun x : ℝ => (x : WithTop ℝ))) edges (wd.map (wrap n)) ws w i j = ∑ s ∈ members S n edges wd ws i j, w.getD s 0 := by
  rw [hist_eq _ _ _ _ _ (by simpa using h1) h2 h3, members, Finset.sum_filter]
  apply Finset.sum_congr rfl
  intro s hs
  have hs' : s < wd.length := by rw [h1]; exact Finset.mem_range.1 hs
  have hx : (wd.map (wrap n)).getD s 0 = wrap n (wd.getD s 0) := by
    simp [List.getD_eq_getElem?_getD, List.getElem?_eq_getElem hs']
  have hm : wd.getD s 0 ∈ wd := by
    rw [List.getD_eq_getElem?_getD, List.getElem?_eq_getElem hs']; simp
  obtain ⟨x1, x2⟩ := hr _ hm
  rw [hx]
  have e1 := C66_sector n hn _ x1 x2 i
  have e2 := C66_bin _ hb (ws.getD s 0) j
  congr 1
  rw [e1, e2]

lemma getBinData_some {r : Results} {v : String} {wsBins : List ℝ} {n : ℕ} {wdVar wsVar : String} {t : ℕ} {c : Contraction} {d : BinData}
    (h : getBinData r v wsBins n wdVar wsVar t c = some d) :
    0 < n ∧ (bounds wsBins false).Pairwise (· ≤ ·) ∧ (∀ s, c ≠ .other s) ∧ ∃ w var ws wd, weights r t t = some w ∧
      (∀ q, r.vars.lookup "weight" = some q → q.dims = .state ∨ q.dims = .stateTurbine) ∧
      values r v t t = some var ∧ values r wsVar t t = some ws ∧ values r wdVar t t = some wd ∧
      d = ⟨mids ((wdBins n).map (fun x : ℝ => (x : WithTop ℝ))), mids (bounds wsBins false),
        binValue c ((wdBins n).map (fun x : ℝ => (x : WithTop ℝ))) (bounds wsBins false) (wd.map (wrap n)) ws w var⟩ := by
  simp only [getBinData, Option.bind_eq_bind, Option.bind_eq_some_iff] at h
  obtain ⟨w, hw, var, hvar, ws, hws, wd, hwd, h⟩ := h
  simp only [binWeights, Option.bind_eq_bind, Option.bind_eq_some_iff] at hw
  obtain ⟨wv, hwv, hw⟩ := hw
  by_cases hn : n = 0
  · simp [hn] at h
  rw [if_neg hn] at h
  have hbd : bounds wsBins false = wsBins.map (fun x : ℝ => (x : WithTop ℝ)) := by simp [bounds]
  rw [← hbd] at h
  by_cases he' : edgesOk (bounds wsBins false) = true
  swap
  · rw [if_pos (by simpa using he')] at h
    simp at h
  rw [if_neg (by simpa using he')] at h
  simp only [edgesOk, Bool.and_eq_true, decide_eq_true_eq, Bool.not_eq_true', List.isEmpty_eq_false_iff] at he'
  have hw' : weights r t t = some w ∧ (wv.dims = .state ∨ wv.dims = .stateTurbine) := by
    simp only [weights, hwv, Option.bind_eq_bind, Option.bind_some]
    cases hd : wv.dims <;> simp [hd] at hw ⊢ <;> exact hw
  refine ⟨by omega, he'.2, ?_, w, var, ws, wd, hw'.1, ?_, hvar, hws, hwd, ?_⟩
  · rintro s rfl
    simp at h
  · intro q hq
    rw [hwv, Option.some.injEq] at hq
    rw [← hq]; exact hw'.2
  · cases c <;> simp at h <;> exact h.symm

/-- What the value of a bin has to be, given weights and values of its states; `none` is NaN. -/
def binSpec (c : Contraction) (m : Finset ℕ) (w var : ℕ → ℝ) : Option ℝ :=
  match c with
  | .weights => if ∑ s ∈ m, w s < 1e-13 then none else some ((∑ s ∈ m, w s * var s) / ∑ s ∈ m, w s)
  | .meanNoWeights => if m = ∅ then none else some ((∑ s ∈ m, var s) / m.card)
  | .sumNoWeights => some (∑ s ∈ m, var s)
  | .other _ => none

/-- C66: the value of a bin: weighted mean, mean or sum of the values of the states in the bin. -/
theorem C66_bin_value {r : Results} {S : ℕ} (hS : HasStates r S) {v : String} {wsBins : List ℝ} {n : ℕ} {wdVar wsVar : String} {t : ℕ}
    {c : Contraction} {d : BinData} (h : getBinData r v wsBins n wdVar wsVar t c = some d) :
    ∃ w var ws wd, weights r t t = some w ∧ values r v t t = some var ∧ values r wsVar t t = some ws ∧ values r wdVar t t = some wd ∧
      ((∀ x ∈ wd, -(360 / n / 2) ≤ x ∧ x < 720 - 360 / n / 2) → ∀ i j,
        d.value i j = binSpec c (members S n (bounds wsBins false) wd ws i j) (fun s => w.getD s 0) (fun s => var.getD s 0)) := by
  obtain ⟨hn, hb, hc, w, var, ws, wd, hw, -, hvar, hws, hwd, rfl⟩ := getBinData_some h
  refine ⟨w, var, ws, wd, hw, hvar, hws, hwd, fun hr i j => ?_⟩
  have l1 := (C66_values hS hws).1
  have l2 := (C66_values hS hwd).1
  have l4 := (C66_values hS hvar).1
  obtain ⟨_, _, _, _, l3, _⟩ := C66_weights hS hw
  have H : ∀ q : List ℝ, q.length = S → hist ((wdBins n).map (fun x : ℝ => (x : WithTop ℝ))) (bounds wsBins false) (wd.map (wrap n)) ws q i j =
      ∑ s ∈ members S n (bounds wsBins false) wd ws i j, q.getD s 0 := fun q hq => hist_members hn hb l2 l1 hq hr i j
  have hmem : ∀ s ∈ members S n (bounds wsBins false) wd ws i j, s < S := by
    intro s hs
    simp only [members, Finset.mem_filter, Finset.mem_range] at hs
    exact hs.1
  cases c with
  | weights =>
    simp only [binValue, binSpec]
    rw [H w l3, H _ (by simp [l3, l4])]
    have e : ∑ s ∈ members S n (bounds wsBins false) wd ws i j, (List.zipWith (· * ·) w var).getD s 0 =
        ∑ s ∈ members S n (bounds wsBins false) wd ws i j, w.getD s 0 * var.getD s 0 := by
      apply Finset.sum_congr rfl
      intro s hs
      have := hmem s hs
      simp [List.getD_eq_getElem?_getD, List.getElem?_eq_getElem (show s < w.length by omega), List.getElem?_eq_getElem (show s < var.length by omega),
        List.getElem?_zipWith]
    rw [e]
  | meanNoWeights =>
    simp only [binValue, binSpec]
    rw [H _ (by simp [l2]), H _ l4]
    have e : ∑ s ∈ members S n (bounds wsBins false) wd ws i j, ((wd.map (wrap n)).map fun _ => (1 : ℝ)).getD s 0 =
        ((members S n (bounds wsBins false) wd ws i j).card : ℝ) := by
      rw [Finset.card_eq_sum_ones]
      push_cast
      apply Finset.sum_congr rfl
      intro s hs
      have := hmem s hs
      simp [List.getD_eq_getElem?_getD, List.getElem?_eq_getElem (show s < wd.length by omega)]
    rw [e]
    have hiff : (((members S n (bounds wsBins false) wd ws i j).card : ℝ) < 1) ↔ members S n (bounds wsBins false) wd ws i j = ∅ := by
      rw [← Finset.card_eq_zero]
      constructor
      · intro h
        have : (members S n (bounds wsBins false) wd ws i j).card < 1 := by exact_mod_cast h
        omega
      · intro h
        rw [h]; norm_num
    by_cases he : members S n (bounds wsBins false) wd ws i j = ∅
    · rw [if_pos (hiff.2 he), if_pos he]
    · rw [if_neg (fun hh => he (hiff.1 hh)), if_neg he]
  | sumNoWeights =>
    simp only [binValue, binSpec]
    rw [H _ l4]
  | other s => exact absurd rfl (hc s)

/-- C66: means of bins are between bounds of the values of the states in the bin (for weights that are not negative). -/
theorem C66_mean_bounds (c : Contraction) (hc : c = .weights ∨ c = .meanNoWeights) (m : Finset ℕ) (w var : ℕ → ℝ) (hw : ∀ s ∈ m, 0 ≤ w s) (a b : ℝ)
    (hv : ∀ s ∈ m, a ≤ var s ∧ var s ≤ b) (x : ℝ) (hx : binSpec c m w var = some x) : a ≤ x ∧ x ≤ b := by
  rcases hc with rfl | rfl
  · simp only [binSpec] at hx
    split_ifs at hx with h
    simp only [Option.some.injEq] at hx
    have hp : 0 < ∑ s ∈ m, w s := by
      have : (0 : ℝ) < 1e-13 := by norm_num
      linarith
    subst hx
    rw [le_div_iff₀ hp, div_le_iff₀ hp, Finset.mul_sum, Finset.mul_sum]
    constructor
    · apply Finset.sum_le_sum
      intro s hs
      have := mul_le_mul_of_nonneg_left (hv s hs).1 (hw s hs)
      linarith
    · apply Finset.sum_le_sum
      intro s hs
      have := mul_le_mul_of_nonneg_left (hv s hs).2 (hw s hs)
      linarith
  · simp only [binSpec] at hx
    split_ifs at hx with h
    simp only [Option.some.injEq] at hx
    have hp : (0 : ℝ) < m.card := by
      have := Finset.card_pos.2 (Finset.nonempty_iff_ne_empty.2 h)
      exact_mod_cast this
    subst hx
    rw [le_div_iff₀ hp, div_le_iff₀ hp]
    have h1 := Finset.card_nsmul_le_sum m var a (fun s hs => (hv s hs).1)
    have h2 := Finset.sum_le_card_nsmul m var b (fun s hs => (hv s hs).2)
    simp only [nsmul_eq_mul] at h1 h2
    constructor <;> linarith

/-- C66: unknown contractions are refused, and so are weights that depend on points. -/
theorem C66_bin_errors (r : Results) (v : String) (wsBins : List ℝ) (n : ℕ) (wdVar wsVar : String) (t : ℕ) (c : Contraction)
    (h : (∃ s, c = .other s) ∨ ∃ q, r.vars.lookup "weight" = some q ∧ (q.dims = .statePoint ∨ q.dims = .other)) :
    getBinData r v wsBins n wdVar wsVar t c = none := by
  by_contra hne
  obtain ⟨d, hd⟩ := Option.ne_none_iff_exists'.1 hne
  obtain ⟨-, -, hc, w, var, ws, wd, -, hq, -⟩ := getBinData_some hd
  rcases h with ⟨s, hs⟩ | ⟨q, hq1, hq2⟩
  · exact hc s hs
  · rcases hq q hq1 with h1 | h1 <;> rw [h1] at hq2 <;> simp at hq2

/-! ### Coordinates -/

/-- C66: centres of bins: half way between the bounds. -/
theorem C66_mids : ∀ (l : List (WithTop ℝ)), (mids l).length = l.length - 1 ∧ ∀ k (h : k + 1 < l.length) (h' : k < (mids l).length), ∀ a b : ℝ, l[k] = a → l[k + 1] = b → (mids l)[k] = ((a + b) / 2 : ℝ)
  | [] => by simp [mids]
  | [a] => by simp [mids]
  | a :: b :: l => by
    obtain ⟨h1, h2⟩ := C66_mids (b :: l)
    refine ⟨by simp [mids, h1], ?_⟩
    intro k h h' x y hx hy
    cases k with
    | zero =>
      simp only [List.getElem_cons_zero, List.getElem_cons_succ, Nat.zero_add] at hx hy
      simp only [mids, List.getElem_cons_zero]
      rw [hx, hy, ← WithTop.coe_add, ← WithTop.coe_mul]
      congr 1; norm_num; ring
    | succ k =>
      have h3 : k < (mids (b :: l)).length := by simpa [mids] using h'
      exact h2 k (by simpa using h) h3 x y (by simpa using hx) (by simpa using hy)

/-- C66: the coordinates of the bin plot are the centres of the sectors, as for the wind rose. -/
theorem C66_bin_centres (n : ℕ) (hn : 0 < n) :
    mids ((wdBins n).map (fun x : ℝ => (x : WithTop ℝ))) = (arange 0 360 (delta n)).map (fun x : ℝ => (x : WithTop ℝ)) := by
  obtain ⟨h1, h2⟩ := C66_mids ((wdBins n).map (fun x : ℝ => (x : WithTop ℝ)))
  obtain ⟨b1, b2⟩ := C66_sector_bounds n hn
  obtain ⟨c1, c2⟩ := C66_sector_centres n hn
  rw [List.length_map, b1, Nat.add_sub_cancel] at h1
  apply List.ext_getElem
  · simp [h1, c1]
  · intro k hk hk'
    have hk2 : k < n := by omega
    rw [h2 k (by simp [b1, hk2]) hk ((wdBins n)[k]'(by omega)) ((wdBins n)[k + 1]'(by omega)) (by simp) (by simp)]
    simp only [List.getElem_map]
    rw [b2 k (by omega), b2 (k + 1) (by omega), c2 k (by omega)]
    push_cast
    congr 1; ring

/-- C66: coordinates and bounds of the wind rose: `n` sector centres, `n + 1` sector bounds and the wind speed bounds with their centres. -/
theorem C66_rose_coords {r : Results} {n : ℕ} {wsVar wdVar : String} {wsBins : List ℝ} {t p : ℕ} {inf : Bool} {d : RoseData}
    (h : getData r n wsVar wsBins wdVar t p inf = some d) :
    d.wdCoord = (List.range n).map (fun k : ℕ => (k : ℝ) * (360 / n)) ∧ d.wdBounds = (List.range (n + 1)).map (fun k : ℕ => (k : ℝ) * (360 / n) - 360 / n / 2) ∧
      d.wsBounds = bounds wsBins inf ∧ d.wsCoord.length = d.wsBounds.length - 1 ∧
      ∀ k (h1 : k + 1 < d.wsBounds.length) (h2 : k < d.wsCoord.length), ∀ a b : ℝ, d.wsBounds[k] = a → d.wsBounds[k + 1] = b → d.wsCoord[k] = ((a + b) / 2 : ℝ) := by
  obtain ⟨hn, -, -, w, ws, wd, -, -, -, rfl⟩ := getData_some h
  obtain ⟨b1, b2⟩ := C66_sector_bounds n hn
  obtain ⟨c1, c2⟩ := C66_sector_centres n hn
  refine ⟨?_, ?_, rfl, (C66_mids _).1, (C66_mids _).2⟩
  · apply List.ext_getElem
    · simp [c1]
    · intro k h1 h2
      simpa using c2 k h1
  · apply List.ext_getElem
    · simp [b1]
    · intro k h1 h2
      simpa using b2 k h1

/-- C66: coordinates of the bin plot: sector centres and centres of the wind speed bins. -/
theorem C66_bin_coords {r : Results} {v : String} {wsBins : List ℝ} {n : ℕ} {wdVar wsVar : String} {t : ℕ} {c : Contraction} {d : BinData}
    (h : getBinData r v wsBins n wdVar wsVar t c = some d) :
    d.wdCoord = (List.range n).map (fun k : ℕ => (((k : ℝ) * (360 / n) : ℝ) : WithTop ℝ)) ∧ d.wsCoord.length = wsBins.length - 1 ∧
      ∀ k (h1 : k + 1 < wsBins.length) (h2 : k < d.wsCoord.length), d.wsCoord[k] = ((wsBins[k] + wsBins[k + 1]) / 2 : ℝ) := by
  obtain ⟨hn, -, -, w, var, ws, wd, -, -, -, -, -, rfl⟩ := getBinData_some h
  obtain ⟨c1, c2⟩ := C66_sector_centres n hn
  have hbd : bounds wsBins false = wsBins.map (fun x : ℝ => (x : WithTop ℝ)) := by simp [bounds]
  obtain ⟨m1, m2⟩ := C66_mids (bounds wsBins false)
  refine ⟨?_, by rw [m1, hbd, List.length_map], ?_⟩
  · simp only [C66_bin_centres n hn]
    apply List.ext_getElem
    · simp [c1]
    · intro k h1 h2
      simp only [List.getElem_map, List.getElem_range]
      rw [c2 k (by simpa using h1)]
  · intro k h1 h2
    exact m2 k (by simpa [hbd] using h1) h2 _ _ (by simp [hbd]) (by simp [hbd])

/-! ### The plot -/

/-- C66: the polar angle of a wind direction: north is up and east is right. -/
theorem C66_angle (wd : ℝ) : Real.cos (plotAngle wd) = Real.sin (wd * Real.pi / 180) ∧ Real.sin (plotAngle wd) = Real.cos (wd * Real.pi / 180) := by
  have e : plotAngle wd = (Real.pi / 2 - wd * Real.pi / 180) - (⌊(90 - wd) / 360⌋ : ℝ) * (2 * Real.pi) := by
    simp only [plotAngle]; ring
  rw [e, Real.cos_sub_int_mul_two_pi, Real.sin_sub_int_mul_two_pi, Real.cos_pi_div_two_sub, Real.sin_pi_div_two_sub]
  exact ⟨rfl, rfl⟩

/-- C66: polar angles are from 0 to a full turn. -/
theorem C66_angle_range (wd : ℝ) : 0 ≤ plotAngle wd ∧ plotAngle wd < 2 * Real.pi := by
  have h1 := Int.floor_le ((90 - wd) / 360)
  have h2 := Int.lt_floor_add_one ((90 - wd) / 360)
  have hp := Real.pi_pos
  simp only [plotAngle]
  have a : 0 ≤ 90 - wd - 360 * (⌊(90 - wd) / 360⌋ : ℝ) := by linarith
  have b : 90 - wd - 360 * (⌊(90 - wd) / 360⌋ : ℝ) < 360 := by linarith
  constructor
  · positivity
  · have := mul_lt_mul_of_pos_right b hp
    rw [div_lt_iff₀ (by norm_num)]
    linarith

/-- C66: the bars of a sector are stacked: the first starts at zero, each next one where the previous one ends, and the last one ends at the frequency of the sector. -/
theorem C66_bars (freq : ℕ → ℕ → ℝ) (nWs i : ℕ) : (bars freq nWs i).length = nWs ∧
    (∀ (h : 0 < (bars freq nWs i).length), (bars freq nWs i)[0].1 = 0) ∧
    (∀ j (h : j < (bars freq nWs i).length), (bars freq nWs i)[j].2 = freq i j) ∧
    (∀ j (h : j + 1 < (bars freq nWs i).length), (bars freq nWs i)[j + 1].1 = (bars freq nWs i)[j].1 + (bars freq nWs i)[j].2) ∧
    (∀ j (h : j < (bars freq nWs i).length), j + 1 = nWs → (bars freq nWs i)[j].1 + (bars freq nWs i)[j].2 = ∑ k ∈ Finset.range nWs, freq i k) := by
  refine ⟨by simp [bars], by simp [bars], by simp [bars], ?_, ?_⟩
  · intro j h
    simp [bars, List.range_succ]
  · rintro j h rfl
    simp only [bars, List.getElem_map, List.getElem_range]
    rw [Finset.sum_range_succ]
    congr 1

/-! ### Examples -/

/-- Two states with wind from 359 and 90 degrees, 5 and 12 m/s. -/
def exR : Results := ⟨false, [("weight", ⟨.state, [[0.25], [0.75]]⟩), ("AMB_WD", ⟨.stateTurbine, [[359, 0], [90, 0]]⟩), ("AMB_REWS", ⟨.stateTurbine, [[5, 0], [12, 0]]⟩)]⟩

lemma ex_states : HasStates exR 2 := by
  intro v q h
  simp only [exR, List.lookup_cons] at h
  split at h
  · simp at h; rw [← h]; rfl
  split at h
  · simp at h; rw [← h]; rfl
  split at h
  · simp at h; rw [← h]; rfl
  · simp at h

lemma ex_weights : weights exR 0 0 = some [0.25, 0.75] := by
  simp [weights, exR, column]

lemma ex_wd : values exR "AMB_WD" 0 0 = some [359, 90] := by
  simp [values, exR, List.lookup_cons, column]

lemma ex_ws : values exR "AMB_REWS" 0 0 = some [5, 12] := by
  simp [values, exR, List.lookup_cons, column]

lemma ex_edges : edgesOk (bounds [0, 10] true) = true := by
  simp [edgesOk, bounds]

/-- The wind rose of the example exists. -/
lemma ex_data : ∃ d, getData exR 4 "AMB_REWS" [0, 10] "AMB_WD" 0 0 true = some d := by
  have h := ex_edges
  simp only [bounds] at h
  simp only [getData, ex_weights, ex_wd, ex_ws, Option.bind_eq_bind, Option.bind_some, h]
  exact ⟨_, rfl⟩

/-- The frequencies of the example sum up to 100. -/
example : ∃ d, getData exR 4 "AMB_REWS" [0, 10] "AMB_WD" 0 0 true = some d ∧
    ∑ i ∈ Finset.range 4, ∑ j ∈ Finset.range 2, d.freq i j = 100 := by
  obtain ⟨d, hd⟩ := ex_data
  refine ⟨d, hd, ?_⟩
  refine C66_hundred ex_states (wsBins := [10]) hd ?_ ?_ ?_
  · intro ws h
    rw [ex_ws] at h
    simp at h
    subst h
    simp
  · intro wd h
    rw [ex_wd] at h
    simp at h
    subst h
    norm_num
  · intro w h
    rw [ex_weights] at h
    simp only [Option.some.injEq] at h
    subst h
    norm_num [Finset.sum_range_succ]

/-- 359 degrees belong to the north sector. -/
lemma ex_north : InSector 4 359 0 := ⟨by norm_num, 1, by norm_num, by norm_num⟩

/-- A quarter of the time the wind is from the north sector with 0 to 10 m/s. -/
example : ∃ d, getData exR 4 "AMB_REWS" [0, 10] "AMB_WD" 0 0 true = some d ∧ d.freq 0 0 = 25 := by
  obtain ⟨d, hd⟩ := ex_data
  refine ⟨d, hd, ?_⟩
  obtain ⟨w, ws, wd, hw, hws, hwd, -, hf⟩ := C66_frequency ex_states hd
  rw [ex_weights] at hw
  rw [ex_ws] at hws
  rw [ex_wd] at hwd
  simp only [Option.some.injEq] at hw hws hwd
  subst hw hws hwd
  rw [hf (by norm_num)]
  have : (Finset.range 2).filter (fun s => InSector 4 (([359, 90] : List ℝ).getD s 0) 0 ∧ InBin (bounds [0, 10] true) (([5, 12] : List ℝ).getD s 0) 0) = {0} := by
    ext s
    simp only [Finset.mem_filter, Finset.mem_range, Finset.mem_singleton]
    constructor
    · rintro ⟨hs, h1, h2⟩
      rcases (by omega : s = 0 ∨ s = 1) with rfl | rfl
      · rfl
      · exfalso
        obtain ⟨h3, h4, h5⟩ := h2
        simp [bounds] at h5
        norm_cast at h5
    · rintro rfl
      refine ⟨by norm_num, by simpa using ex_north, by simp [bounds], by simp [bounds], Or.inl ?_⟩
      simp only [bounds, List.map_cons, List.map_nil, List.getD_cons_zero, if_true, List.cons_append, List.nil_append, Nat.zero_add, List.getElem_cons_succ, List.getElem_cons_zero]
      exact_mod_cast (by norm_num : (5 : ℝ) < 10)
  rw [this]
  norm_num

/-- The weighted mean of the wind speed in a bin of the example exists. -/
example : ∃ d, getBinData exR "AMB_REWS" [0, 10] 4 "AMB_WD" "AMB_REWS" 0 .weights = some d := by
  have h : edgesOk (([0, 10] : List ℝ).map (fun x : ℝ => (x : WithTop ℝ))) = true := by simp [edgesOk]
  have hw : binWeights exR 0 = some [0.25, 0.75] := by simp [binWeights, exR, column]
  simp only [getBinData, hw, ex_wd, ex_ws, Option.bind_eq_bind, Option.bind_some, h]
  exact ⟨_, rfl⟩

end

/-! ### Roses of states -/

lemma lookup_rename (a b v : String) : ∀ (vars : List (String × RVar)), (a ≠ b → vars.lookup b = none) →
    (vars.map fun p => (if p.1 = a then b else p.1, p.2)).lookup v = if v = b then vars.lookup a else if v = a then none else vars.lookup v
  | [], _ => by simp
  | (c, x) :: vars, h => by
    have hb : a ≠ b → c ≠ b ∧ vars.lookup b = none := by
      intro hab
      have := h hab
      by_cases hc : b = c
      · subst hc; simp [List.lookup_cons] at this
      · rw [List.lookup_cons, show (b == c) = false by simpa using hc] at this
        exact ⟨fun e => hc e.symm, this⟩
    have ih := lookup_rename a b v vars (fun hab => (hb hab).2)
    rw [List.map_cons, List.lookup_cons, ih]
    by_cases hab : a = b
    · subst hab
      by_cases hca : c = a
      · subst hca
        by_cases hv : v = c
        · subst hv; simp
        · rw [show (v == (if c = c then c else c)) = false by simpa using hv]
          simp [hv, List.lookup_cons, show (v == c) = false by simpa using hv]
      · by_cases hv : v = a
        · subst hv
          have h1 : (v == c) = false := by simpa using fun e => hca e.symm
          simp [hca, List.lookup_cons, h1]
        · by_cases hvc : v = c
          · subst hvc; simp [hca, hv]
          · have h1 : (v == c) = false := by simpa using hvc
            simp [hca, hv, List.lookup_cons, h1]
    · have hcb := (hb hab).1
      by_cases hca : c = a
      · subst hca
        by_cases hv : v = b
        · subst hv; simp [List.lookup_cons]
        · have h1 : (v == b) = false := by simpa using hv
          by_cases hvc : v = c
          · simp [hv, hvc, h1, List.lookup_cons, show (c == b) = false by simpa using hab, hab]
          · simp [hv, hvc, h1, List.lookup_cons, show (v == c) = false by simpa using hvc]
      · have h2 : (a == c) = false := by simpa using fun e => hca e.symm
        by_cases hv : v = b
        · subst hv
          simp [hca, List.lookup_cons, h2, show (v == c) = false by simpa using fun e => hcb e.symm]
        · by_cases hvc : v = c
          · subst hvc; simp [hca, hv]
          · simp [hca, hv, List.lookup_cons, show (v == c) = false by simpa using hvc, h2]

/-- **C66 (roses of states: construction).** It succeeds exactly if the ambient results have the wind speed variable, and do not have another variable with the
name AMB_WS. -/
theorem C66_states_construct (vars : List (String × RVar)) (wsVar : String) :
    (statesRose vars wsVar).isSome ↔ (vars.lookup wsVar).isSome ∧ (wsVar = "AMB_WS" ∨ vars.lookup "AMB_WS" = none) := by
  unfold statesRose rename
  cases h1 : vars.lookup wsVar <;> cases h2 : vars.lookup "AMB_WS" <;> by_cases h3 : wsVar = "AMB_WS" <;> simp_all [choose]

/-- **C66 (roses of states: variables).** The rose of states has the variable AMB_WS with the data of the user's wind speed variable; the variable is not known
by its original name any longer; the other variables and the weights are those of the ambient results. -/
theorem C66_states_variables (vars : List (String × RVar)) (wsVar : String) (r : Results) (h : statesRose vars wsVar = some r) (t p : ℕ) :
    values r "AMB_WS" t p = values ⟨false, vars⟩ wsVar t p ∧
    (wsVar ≠ "AMB_WS" → values r wsVar t p = none) ∧
    (∀ v, v ≠ wsVar → v ≠ "AMB_WS" → values r v t p = values ⟨false, vars⟩ v t p) ∧
    (wsVar ≠ "weight" → weights r t p = weights ⟨false, vars⟩ t p) := by
  have hs := (C66_states_construct vars wsVar).1 (by rw [h]; rfl)
  have hl := fun v => lookup_rename wsVar "AMB_WS" v vars (fun hab => hs.2.resolve_left hab)
  have hr : r = ⟨false, vars.map fun p => (if p.1 = wsVar then "AMB_WS" else p.1, p.2)⟩ := by
    unfold statesRose rename at h
    have h1 : ¬ (vars.lookup wsVar).isNone = true := by
      cases hx : vars.lookup wsVar with
      | none => rw [hx] at hs; simp at hs
      | some x => simp
    have h2 : ¬ (wsVar ≠ "AMB_WS" ∧ (vars.lookup "AMB_WS").isSome = true) := by
      rintro ⟨h3, h4⟩
      rw [hs.2.resolve_left h3] at h4
      cases h4
    rw [if_neg h1, if_neg h2] at h
    simpa [choose] using h.symm
  subst hr
  refine ⟨?_, ?_, ?_, ?_⟩
  · simp only [values, hl]; simp
  · intro h3; simp only [values, hl]; simp [h3]
  · intro v h3 h4; simp only [values, hl]; simp [h3, h4]
  · intro h3; simp only [weights, hl]; simp [Ne.symm h3]

open scoped Classical in
/-- **C66 (roses of states: frequencies).** The frequency of a sector and bin is 100 times the weight of the states whose ambient wind direction and speed at the
user's point are in it, whatever point the user asks for in `get_data`. -/
theorem C66_states_frequency {vars : List (String × RVar)} {S : ℕ} (hS : HasStates ⟨false, vars⟩ S) {ws0 : String} (hw0 : ws0 ≠ "weight") (hw1 : ws0 ≠ "AMB_WD")
    {r : Results} (hr : statesRose vars ws0 = some r) {n : ℕ} {wsBins : List ℝ} {p : ℕ} {inf : Bool} {d : RoseData} (h : getData r n "AMB_WS" wsBins "AMB_WD" 0 p inf = some d)
    (hwd : ∀ wd, values ⟨false, vars⟩ "AMB_WD" 0 p = some wd → ∀ x ∈ wd, 0 ≤ x ∧ x ≤ 360) :
    ∃ w ws wd, weights ⟨false, vars⟩ 0 p = some w ∧ values ⟨false, vars⟩ ws0 0 p = some ws ∧ values ⟨false, vars⟩ "AMB_WD" 0 p = some wd ∧
      ∀ i j, d.freq i j = 100 * ∑ s ∈ (Finset.range S).filter
        (fun s => InSector n (wd.getD s 0) i ∧ InBin (bounds wsBins inf) (ws.getD s 0) j), w.getD s 0 := by
  obtain ⟨h1, -, h3, h4⟩ := C66_states_variables vars ws0 r hr 0 p
  have hS' : HasStates r S := by
    have hs := (C66_states_construct vars ws0).1 (by rw [hr]; rfl)
    have hl := fun v => lookup_rename ws0 "AMB_WS" v vars (fun hab => hs.2.resolve_left hab)
    intro v q hq
    have hvars : r.vars = vars.map fun p => (if p.1 = ws0 then "AMB_WS" else p.1, p.2) := by
      unfold statesRose rename at hr
      split at hr
      · simp at hr
      · split at hr
        · simp at hr
        · simp only [Option.bind_eq_bind, Option.bind_some, choose] at hr
          simp at hr
          rw [← hr]
    rw [hvars, hl] at hq
    split at hq
    · exact hS _ q hq
    · split at hq
      · cases hq
      · exact hS _ q hq
  obtain ⟨w, ws, wd, e1, e2, e3, -, e5⟩ := C66_frequency hS' h
  rw [h4 hw0] at e1
  rw [h1] at e2
  rw [h3 "AMB_WD" (Ne.symm hw1) (by decide)] at e3
  obtain ⟨hn, -⟩ := getData_some h
  have hn' : (1 : ℝ) ≤ n := by exact_mod_cast hn
  have hd : (360 : ℝ) / n ≤ 360 := by rw [div_le_iff₀ (by linarith)]; nlinarith
  have hd0 : (0 : ℝ) < 360 / n := by positivity
  exact ⟨w, ws, wd, e1, e2, e3, e5 fun x hx => ⟨by linarith [(hwd wd e3 x hx).1], by linarith [(hwd wd e3 x hx).2]⟩⟩

/-- **C66 (roses of states: one turbine).** Since there is one turbine only, `get_data` fails for every other turbine. -/
theorem C66_states_one_turbine {vars : List (String × RVar)} {wsVar : String} {r : Results} (hr : statesRose vars wsVar = some r)
    {q : RVar} (hq : vars.lookup wsVar = some q) (h1 : q.rows ≠ []) (h2 : ∀ row ∈ q.rows, row.length = 1) (n : ℕ) (wsBins : List ℝ) (wdVar : String) (t p : ℕ) (ht : 0 < t)
    (inf : Bool) : getData r n "AMB_WS" wsBins wdVar t p inf = none := by
  have hv : values r "AMB_WS" t p = none := by
    rw [(C66_states_variables vars wsVar r hr t p).1]
    have hc : column q.rows t = none := by
      cases hx : column q.rows t with
      | none => rfl
      | some l =>
        exfalso
        obtain ⟨l1, l2⟩ := column_spec hx
        have hpos := List.length_pos_iff.2 h1
        have h3 := l2 0 hpos
        have h4 := h2 _ (List.getElem_mem hpos)
        rw [List.getElem?_eq_none (by omega), List.getElem?_eq_getElem (by omega)] at h3
        cases h3
    simp only [values, hq]
    cases hd : q.dims <;> simp [hd, hc]
  simp only [getData, hv]
  cases weights r t p <;> rfl

/-- the ambient results of a farm with one turbine, two states -/
def demoVars : List (String × RVar) :=
  [("weight", ⟨.stateTurbine, [[0.25], [0.75]]⟩), ("AMB_WD", ⟨.stateTurbine, [[10], [350]]⟩), ("AMB_REWS", ⟨.stateTurbine, [[5], [6]]⟩)]
example : (statesRose demoVars "AMB_REWS").isSome := by
  rw [C66_states_construct]; simp [demoVars, List.lookup_cons]

end Foxes.Props.Rose
