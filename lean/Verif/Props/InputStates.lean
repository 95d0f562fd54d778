import Mathlib.Tactic.Linarith
import Mathlib.Tactic.Positivity
import Mathlib.Tactic.NormNum
import Mathlib.Tactic.Ring
import Mathlib.Tactic.FieldSimp
import Mathlib.Data.List.Nodup
import Mathlib.Data.List.Forall2
import Mathlib.Algebra.Order.BigOperators.Group.List
import Mathlib.Algebra.BigOperators.Ring.List
import Verif.Model.InputStates
/-
C38: input states enumerate the right states with the right weights.
-/
namespace Foxes.Props.InputStates

open Foxes.InputStates
noncomputable section
open scoped Classical

/-! ### ScanStates -/

/-- All combinations of one value per list; the last list varies fastest. -/
def combinations : List (List ℝ) → List (List ℝ)
  | [] => [[]]
  | d :: ds => d.flatMap (fun x => (combinations ds).map (fun c => x :: c))

lemma scanRow_mod (ds : List (List ℝ)) (r : ℕ) : scanRow ds (r % scanN ds) = scanRow ds r := by
  induction ds generalizing r with
  | nil => rfl
  | cons d ds ih =>
    have hN : scanN (d :: ds) = scanN ds * d.length := by simp [scanN, mul_comm]
    simp only [scanRow]
    congr 1
    · rw [hN, Nat.mod_mul_right_div_self, Nat.mod_mod]
    · rw [← ih, hN, Nat.mod_mul_right_mod, ih]

lemma range_mul (l m : ℕ) : List.range (l * m) = (List.range l).flatMap (fun i => (List.range m).map (fun j => i * m + j)) := by
  induction l with
  | zero => simp
  | succ l ih => rw [Nat.succ_mul, List.range_add, ih, List.range_succ, List.flatMap_append]; simp

lemma scan_eq (scans : List (List ℝ)) : scanStates scans = combinations scans := by
  induction scans with
  | nil => rfl
  | cons d ds ih =>
    have hN : scanN (d :: ds) = d.length * scanN ds := by simp [scanN]
    unfold scanStates
    rw [hN, range_mul, combinations, ← ih]
    have hd : d = (List.range d.length).map (fun i => d.getD i 0) := by
      apply List.ext_getElem (by simp)
      intro i h1 h2
      simp [List.getElem?_eq_getElem h1]
    conv_rhs => rw [hd]
    rw [List.map_flatMap, List.flatMap_map]
    apply List.flatMap_congr
    intro i hi
    rw [List.mem_range] at hi
    unfold scanStates
    rw [List.map_map, List.map_map]
    apply List.map_congr_left
    intro j hj
    rw [List.mem_range] at hj
    simp only [Function.comp, scanRow]
    have hpos : 0 < scanN ds := by omega
    congr 1
    · rw [Nat.mul_comm, Nat.mul_add_div hpos, Nat.div_eq_of_lt hj, Nat.add_zero, Nat.mod_eq_of_lt hi]
    · rw [← scanRow_mod ds (i * scanN ds + j), Nat.mul_comm, Nat.mul_add_mod, scanRow_mod]

/-- **C38 (scan).** The states of a scan are all combinations of the scanned values, the last variable varying fastest. -/
theorem C38_scan_row_major (scans : List (List ℝ)) : scanStates scans = combinations scans := scan_eq scans

/-- **C38 (scan).** Each combination of the scanned values occurs, nothing else does, their number is the product of the numbers of
values, and for distinct values each occurs once. -/
theorem C38_scan_complete (scans : List (List ℝ)) :
    (∀ c, c ∈ scanStates scans ↔ List.Forall₂ (fun x l => x ∈ l) c scans) ∧
    (scanStates scans).length = (scans.map List.length).prod ∧
    ((∀ l ∈ scans, l.Nodup) → (scanStates scans).Nodup) := by
  refine ⟨?_, by simp [scanStates, scanN], ?_⟩
  · rw [scan_eq]
    induction scans with
    | nil => intro c; simp [combinations]
    | cons d ds ih =>
      intro c
      simp only [combinations, List.mem_flatMap, List.mem_map, ih]
      constructor
      · rintro ⟨x, hx, c', hc', rfl⟩
        exact List.Forall₂.cons hx hc'
      · rintro (_ | ⟨hx, hc⟩)
        exact ⟨_, hx, _, hc, rfl⟩
  · rw [scan_eq]
    induction scans with
    | nil => intro _; simp [combinations]
    | cons d ds ih =>
      intro h
      rw [combinations, List.nodup_flatMap]
      refine ⟨?_, ?_⟩
      · intro x _
        exact (ih (fun l hl => h l (by simp [hl]))).map (fun a b hab => by simpa using hab)
      · refine (h d (by simp)).imp ?_
        intro a b hab
        simp only [Function.onFun]
        rw [List.disjoint_left]
        intro c hc hc'
        obtain ⟨u, _, rfl⟩ := List.mem_map.1 hc
        obtain ⟨w, _, hw⟩ := List.mem_map.1 hc'
        rw [List.cons.injEq] at hw
        exact hab hw.1.symm

/-- **C38 (weights).** The default weights are all equal and sum to one. -/
theorem C38_default_weights (n : ℕ) (hn : 0 < n) : (defaultWeights n).length = n ∧ (∀ w ∈ defaultWeights n, w = 1 / n) ∧ (defaultWeights n).sum = 1 := by
  unfold defaultWeights
  refine ⟨by simp, ?_, ?_⟩
  · intro w hw; exact List.eq_of_mem_replicate hw
  · rw [List.sum_replicate]
    have : (n : ℝ) ≠ 0 := by exact_mod_cast hn.ne'
    simp only [nsmul_eq_mul]; field_simp

/-! ### Tables -/

lemma tcols_full (cfg : TableCfg) (t : Table) (vs cs : List String) (h : tcols cfg t vs = some cs) :
    cs.length ≤ vs.length ∧ (cs.length = vs.length → cs = vs.map cfg.var2col ∧ ∀ v ∈ vs, cfg.var2col v ∈ t.cols) := by
  induction vs generalizing cs with
  | nil => simp [tcols] at h; subst h; simp
  | cons v vs ih =>
    rw [tcols] at h
    split_ifs at h with h1 h2
    · rw [Option.map_eq_some_iff] at h
      obtain ⟨l, hl, rfl⟩ := h
      obtain ⟨i1, i2⟩ := ih l hl
      refine ⟨by simpa using i1, ?_⟩
      intro hlen
      obtain ⟨j1, j2⟩ := i2 (by simpa using hlen)
      refine ⟨by simp [j1], ?_⟩
      intro w hw
      rw [List.mem_cons] at hw
      rcases hw with rfl | hw
      · exact h1
      · exact j2 w hw
    · obtain ⟨i1, _⟩ := ih cs h
      refine ⟨by simp; omega, ?_⟩
      intro hlen
      simp at hlen; omega

lemma mapM_some {α β : Type} (f : α → Option β) (l : List α) (out : List β) (h : l.mapM f = some out) : List.Forall₂ (fun a b => f a = some b) l out := by
  induction l generalizing out with
  | nil => simp at h; subst h; exact List.Forall₂.nil
  | cons a l ih =>
    rw [List.mapM_cons] at h
    simp only [Option.bind_eq_bind, Option.bind_eq_some_iff, Option.pure_def, Option.some.injEq] at h
    obtain ⟨b, hb, out', h2, rfl⟩ := h
    exact List.Forall₂.cons hb (ih out' h2)

lemma lookup_zip_map (vs : List String) (f : String → ℝ) (v : String) (hv : v ∈ vs) : (vs.zip (vs.map f)).lookup v = some (f v) := by
  induction vs with
  | nil => simp at hv
  | cons w vs ih =>
    simp only [List.map_cons, List.zip_cons_cons, List.lookup_cons]
    by_cases h : v = w
    · simp [h]
    · have : (v == w) = false := by simpa using h
      rw [this]
      rw [List.mem_cons] at hv
      exact ih (hv.resolve_left h)

lemma foldl_other (profiles : List (String × List String)) (prof : String → (String → Option ℝ) → ℝ → ℝ) (z : ℝ) (d : String → Option ℝ) (v : String)
    (hv : ∀ p ∈ profiles, p.1 ≠ v) :
    profiles.foldl (fun d p => fun v => if v = p.1 then some (prof p.1 d z) else d v) d v = d v := by
  induction profiles generalizing d with
  | nil => rfl
  | cons p l ih =>
    rw [List.foldl_cons, ih _ (fun q hq => hv q (by simp [hq]))]
    rw [if_neg (fun h => hv p (by simp) h.symm)]

/-- **C38 (table).** For any internal order of the variables and any selection of rows: if the table can be loaded, then the states are the
selected rows in order, and for each of them an output variable without profile has its fixed value, or else the value of the row in
the column assigned to it. -/
theorem C38_table (cfg : TableCfg) (t : Table) (sel : List ℕ) (tvars : List String) (ht : IsTvars cfg tvars)
    (prof : String → (String → Option ℝ) → ℝ → ℝ) (data : List (List ℝ)) (h : loadTable cfg t sel tvars = some data) :
    List.Forall₂ (fun i row => ∃ r, t.rows[i]? = some r ∧ ∀ z, ∀ v ∈ cfg.ovars, (∀ p ∈ cfg.profiles, p.1 ≠ v) →
      calcState cfg tvars prof row z v = some (match cfg.fixed.lookup v with
        | some f => f
        | none => r (cfg.var2col v))) sel data := by
  unfold loadTable at h
  cases hc : tcols cfg t tvars with
  | none => rw [hc] at h; cases h
  | some cs =>
    rw [hc] at h
    simp only at h
    split_ifs at h with hl
    obtain ⟨hcs, _⟩ := (tcols_full cfg t tvars cs hc).2 hl
    refine (mapM_some _ _ _ h).imp ?_
    intro i row hrow
    rw [Option.map_eq_some_iff] at hrow
    obtain ⟨r, hr, rfl⟩ := hrow
    refine ⟨r, hr, ?_⟩
    intro z v hv hp
    unfold calcState
    simp only
    rw [foldl_other _ _ _ _ _ hp]
    cases hf : cfg.fixed.lookup v with
    | some f => rfl
    | none =>
      simp only
      have hmem : v ∈ tvars := by
        rw [ht.2 v]
        refine ⟨Or.inl hv, ?_⟩
        intro f hfm he
        have := List.lookup_eq_none_iff.1 hf f hfm
        simp [he] at this
      rw [hcs, List.map_map]
      exact lookup_zip_map tvars (fun v => r (cfg.var2col v)) v hmem

/-- **C38 (table, finding).** A table can be loaded only if there is a column for every output variable that is not fixed, also for those
that come from a vertical profile which does not need it: the code skips such columns (states_table.py:253), but then the number of columns
does not fit. -/
theorem C38_profile_needs_column (cfg : TableCfg) (t : Table) (sel : List ℕ) (tvars : List String) (ht : IsTvars cfg tvars) (data : List (List ℝ))
    (h : loadTable cfg t sel tvars = some data) (v : String) (hv : v ∈ cfg.ovars) (hf : ∀ f ∈ cfg.fixed, f.1 ≠ v) : cfg.var2col v ∈ t.cols := by
  unfold loadTable at h
  cases hc : tcols cfg t tvars with
  | none => rw [hc] at h; cases h
  | some cs =>
    rw [hc] at h
    simp only at h
    split_ifs at h with hl
    exact ((tcols_full cfg t tvars cs hc).2 hl).2 v ((ht.2 v).2 ⟨Or.inl hv, hf⟩)

/-- **C38 (table weights).** If a column is assigned to the weight then the weights are those of that column, row by row, and it is an
error if there is no such column. Else they are those of the column `weight`, and if there is none they are all equal and sum to one. -/
theorem C38_table_weights (t : Table) (sel : List ℕ) :
    (∀ c w, tableWeights t (some c) sel = some w → c ∈ t.cols ∧ List.Forall₂ (fun i x => ∃ r, t.rows[i]? = some r ∧ x = r c) sel w) ∧
    (∀ w, tableWeights t none sel = some w → "weight" ∈ t.cols → List.Forall₂ (fun i x => ∃ r, t.rows[i]? = some r ∧ x = r "weight") sel w) ∧
    ("weight" ∉ t.cols → sel ≠ [] → ∃ w, tableWeights t none sel = some w ∧ w.length = sel.length ∧ (∀ x ∈ w, x = 1 / sel.length) ∧ w.sum = 1) := by
  have key : ∀ (c : String) (w : List ℝ), sel.mapM (fun i => (t.rows[i]?).map (fun row => row c)) = some w →
      List.Forall₂ (fun i x => ∃ r, t.rows[i]? = some r ∧ x = r c) sel w := by
    intro c w h
    refine (mapM_some _ _ _ h).imp ?_
    intro i x hx
    rw [Option.map_eq_some_iff] at hx
    obtain ⟨r, hr, rfl⟩ := hx
    exact ⟨r, hr, rfl⟩
  refine ⟨?_, ?_, ?_⟩
  · intro c w h
    unfold tableWeights at h
    simp only [Option.getD_some, Option.isSome_some, if_true] at h
    split_ifs at h with hc
    exact ⟨hc, key c w h⟩
  · intro w h hw
    unfold tableWeights at h
    simp only [Option.getD_none] at h
    rw [if_pos hw] at h
    exact key _ w h
  · intro hw hs
    have hpos : 0 < sel.length := List.length_pos_iff.2 hs
    refine ⟨defaultWeights sel.length, ?_, (C38_default_weights _ hpos).1, (C38_default_weights _ hpos).2.1, (C38_default_weights _ hpos).2.2⟩
    unfold tableWeights
    simp [hw]

/-- **C38 (table weights).** With a weight column the weights are found for every selection of existing rows. -/
theorem C38_table_weights_exist (t : Table) (wren : Option String) (sel : List ℕ) (hc : wren.getD "weight" ∈ t.cols)
    (hs : ∀ i ∈ sel, i < t.rows.length) : ∃ w, tableWeights t wren sel = some w := by
  unfold tableWeights
  simp only
  rw [if_pos hc]
  induction sel with
  | nil => exact ⟨[], rfl⟩
  | cons i l ih =>
    obtain ⟨w, hw⟩ := ih fun j hj => hs j (by simp [hj])
    have hi := hs i (by simp)
    exact ⟨_, by rw [List.mapM_cons, List.getElem?_eq_getElem hi, Option.map_some, hw]; rfl⟩

/-- **C38 (profiles, finding).** States with a profile given as dictionary can be initialised only once: the entry `type` is removed from
the user's dictionary. -/
theorem C38_profile_dict_once (d : ProfDict) : (initProfile d).bind initProfile = none := by
  unfold initProfile
  split_ifs <;> rfl

/-! ### Tab files -/

lemma sum_filter_pos (l : List (ℝ × ℝ × ℝ)) (h : ∀ s ∈ l, 0 ≤ s.2.2) :
    ((l.filter (fun s => decide (s.2.2 > 0))).map (fun s => s.2.2)).sum = (l.map (fun s => s.2.2)).sum := by
  induction l with
  | nil => rfl
  | cons s l ih =>
    have ih := ih (fun x hx => h x (by simp [hx]))
    by_cases hs : s.2.2 > 0
    · rw [List.filter_cons_of_pos (by simpa using hs)]; simp [ih]
    · rw [List.filter_cons_of_neg (by simpa using hs)]
      have : s.2.2 = 0 := le_antisymm (not_lt.1 hs) (h s (by simp))
      simp [ih, this]

lemma sum_swap (n m : ℕ) (f : ℕ → ℕ → ℝ) :
    ((List.range n).map (fun i => ((List.range m).map (fun j => f i j)).sum)).sum = ((List.range m).map (fun j => ((List.range n).map (fun i => f i j)).sum)).sum := by
  induction n with
  | zero => simp
  | succ n ih =>
    rw [List.range_succ, List.map_append, List.sum_append, ih]
    simp only [List.map_append, List.sum_append, List.map_cons, List.map_nil, List.sum_cons, List.sum_nil, add_zero]
    rw [List.sum_map_add]

/-- **C38 (tab file weights).** With normalisation, the weights of the states of a tab file are positive and their sum is the share of
the sectors that have wind speed frequencies; it is one if all sectors with wind have them. -/
theorem C38_tab_weights (a : ℝ) (nws nwd : ℕ) (ws : ℕ → ℝ) (f : ℕ → ℕ → ℝ) (g : ℕ → ℝ) (hf : ∀ i j, 0 ≤ f i j) (hg : ∀ j, 0 ≤ g j)
    (hgs : 0 < ((List.range nwd).map g).sum) :
    (∀ s ∈ tabStates true a nws nwd ws f g, 0 < s.2.2) ∧
    ((tabStates true a nws nwd ws f g).map (fun s => s.2.2)).sum =
      ((List.range nwd).map (fun j => if colSum nws f j = 0 then 0 else g j)).sum / ((List.range nwd).map g).sum ∧
    ((∀ j < nwd, g j ≠ 0 → colSum nws f j ≠ 0) → ((tabStates true a nws nwd ws f g).map (fun s => s.2.2)).sum = 1) := by
  have hcs : ∀ j, 0 ≤ colSum nws f j := by
    intro j; unfold colSum
    apply List.sum_nonneg
    intro x hx
    obtain ⟨i, _, rfl⟩ := List.mem_map.1 hx
    exact hf i j
  have hw : ∀ i j, 0 ≤ tabWeight true nws nwd f g i j := by
    intro i j
    unfold tabWeight tabWsFreq tabWdFreq
    simp only [if_true]
    have := hf i j; have := hg j; have := hcs j
    positivity
  have hsum : ((tabStates true a nws nwd ws f g).map (fun s => s.2.2)).sum =
      ((List.range nwd).map (fun j => if colSum nws f j = 0 then 0 else g j)).sum / ((List.range nwd).map g).sum := by
    unfold tabStates
    rw [sum_filter_pos]
    · rw [List.map_flatMap]
      have e1 : ∀ l : List ℕ, (l.flatMap (fun i => ((List.range nwd).map (fun j => (tabWs a ws i, tabWd nwd j, tabWeight true nws nwd f g i j))).map (fun s => s.2.2))).sum
          = (l.map (fun i => ((List.range nwd).map (fun j => tabWeight true nws nwd f g i j)).sum)).sum := by
        intro l
        induction l with
        | nil => rfl
        | cons i l ih =>
          rw [List.flatMap_cons, List.sum_append, ih, List.map_cons, List.sum_cons, List.map_map]
          rfl
      rw [e1, sum_swap, div_eq_mul_inv, ← List.sum_map_mul_right]
      congr 1
      apply List.map_congr_left
      intro j _
      unfold tabWeight tabWsFreq tabWdFreq
      simp only [if_true]
      have e2 : ((List.range nws).map (fun i => f i j * (1000 / colSum nws f j) * (g j * (100 / ((List.range nwd).map g).sum) / 100) / 1000)).sum
          = colSum nws f j * (1 / colSum nws f j * g j * (((List.range nwd).map g).sum)⁻¹) := by
        unfold colSum
        rw [← List.sum_map_mul_right]
        congr 1
        apply List.map_congr_left
        intro i _
        field_simp
      rw [e2]
      split_ifs with h0
      · rw [h0]; ring
      · field_simp
    · intro s hs
      obtain ⟨i, _, hs⟩ := List.mem_flatMap.1 hs
      obtain ⟨j, _, rfl⟩ := List.mem_map.1 hs
      exact hw i j
  refine ⟨?_, hsum, ?_⟩
  · intro s hs
    have := (List.mem_filter.1 hs).2
    simpa using this
  · intro h
    rw [hsum, div_eq_one_iff_eq hgs.ne']
    congr 1
    apply List.map_congr_left
    intro j hj
    split_ifs with h0
    · by_contra hne
      exact h j (List.mem_range.1 hj) (Ne.symm hne) h0
    · rfl

/-- **C38 (tab file bins).** Each state of a tab file has the middle of a wind speed bin and a sector direction in `[0, 360)`. -/
theorem C38_tab_bins (norm : Bool) (a : ℝ) (nws nwd : ℕ) (ws : ℕ → ℝ) (f : ℕ → ℕ → ℝ) (g : ℕ → ℝ) (s : ℝ × ℝ × ℝ)
    (hs : s ∈ tabStates norm a nws nwd ws f g) :
    ∃ i < nws, ∃ j < nwd, s.1 = a * ((if i = 0 then 0 else ws (i - 1)) + ws i) / 2 ∧ s.2.1 = 360 * j / nwd ∧ 0 ≤ s.2.1 ∧ s.2.1 < 360 := by
  have hs := (List.mem_filter.1 hs).1
  obtain ⟨i, hi, hs⟩ := List.mem_flatMap.1 hs
  obtain ⟨j, hj, rfl⟩ := List.mem_map.1 hs
  rw [List.mem_range] at hi hj
  have hn : (0 : ℝ) < nwd := by exact_mod_cast (by omega : 0 < nwd)
  have hjr : (j : ℝ) < nwd := by exact_mod_cast hj
  refine ⟨i, hi, j, hj, ?_, ?_, ?_, ?_⟩
  · simp only [tabWs]; split_ifs <;> ring
  · simp only [tabWd]; ring
  · simp only [tabWd]; positivity
  · simp only [tabWd]
    rw [← mul_div_assoc, div_lt_iff₀ hn]; linarith

/- concrete cases -/
example : scanStates [[1, 2], [3, 4, 5]] = [[1, 3], [1, 4], [1, 5], [2, 3], [2, 4], [2, 5]] := by rw [scan_eq]; simp [combinations]
example : ∀ l ∈ ([[1, 2], [3, 4, 5]] : List (List ℝ)), l.Nodup := by intro l hl; simp at hl; rcases hl with rfl | rfl <;> norm_num
def exCfg : TableCfg := { ovars := ["WS", "TI"], var2col := fun v => if v = "WS" then "speed" else v, fixed := [("TI", 0.1)], profiles := [] }
def exTable : Table := { cols := ["speed"], rows := [fun _ => 8, fun _ => 9] }
example : IsTvars exCfg ["WS"] := by
  refine ⟨by simp, ?_⟩
  intro v
  simp [exCfg]
  constructor
  · rintro rfl; simp
  · rintro ⟨h | h, hn⟩
    · exact h
    · exact absurd h.symm hn
example : loadTable exCfg exTable [1, 0] ["WS"] = some [[9], [8]] := by
  simp [loadTable, tcols, exCfg, exTable, List.mapM_cons]
example : 0 < ((List.range 2).map (fun j => (j : ℝ))).sum := by simp [List.range_succ]

end

end Foxes.Props.InputStates
