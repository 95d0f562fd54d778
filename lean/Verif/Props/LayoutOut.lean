import Verif.Model.LayoutOut
import Verif.Props.ResultFiles
import Mathlib.Algebra.BigOperators.Group.List.Basic
import Mathlib.Tactic.Linarith
import Mathlib.Tactic.FieldSimp
/-
C76: layouts and point results in files.
-/
namespace Foxes.Props.LayoutOut
open Foxes.LayoutOut
open Foxes.ResultFiles (roundEven)
open Foxes.Props.ResultFiles (roundEven_near roundEven_nat)

/-! ### Rounding -/

theorem rnd_near (d : ℕ) (q : ℚ) : |rnd d q - q| ≤ 1 / 2 / 10 ^ d := by
  have hp : (0 : ℚ) < 10 ^ d := by positivity
  unfold rnd
  by_cases h : q < 0
  · rw [if_pos h]
    have := roundEven_near (-q * 10 ^ d) (by nlinarith)
    have e : -((roundEven (-q * 10 ^ d) : ℚ) / 10 ^ d) - q = -(((roundEven (-q * 10 ^ d) : ℚ) - -q * 10 ^ d) / 10 ^ d) := by
      field_simp; ring
    rw [e, abs_neg, abs_div, abs_of_pos hp]
    exact div_le_div_of_nonneg_right this hp.le
  · rw [if_neg h]
    have := roundEven_near (q * 10 ^ d) (by push Not at h; positivity)
    have e : (roundEven (q * 10 ^ d) : ℚ) / 10 ^ d - q = ((roundEven (q * 10 ^ d) : ℚ) - q * 10 ^ d) / 10 ^ d := by
      field_simp
    rw [e, abs_div, abs_of_pos hp]
    exact div_le_div_of_nonneg_right this hp.le

theorem rnd_fix (d : ℕ) (k : ℤ) : rnd d ((k : ℚ) / 10 ^ d) = (k : ℚ) / 10 ^ d := by
  have hp : (0 : ℚ) < 10 ^ d := by positivity
  have hp' := hp.ne'
  unfold rnd
  by_cases h : (k : ℚ) / 10 ^ d < 0
  · rw [if_pos h]
    have hk : k < 0 := by
      by_contra h0
      push Not at h0
      have : (0 : ℚ) ≤ k := by exact_mod_cast h0
      have := div_nonneg this hp.le
      linarith
    obtain ⟨m, hm⟩ : ∃ m : ℕ, -k = m := ⟨(-k).toNat, by omega⟩
    have e : -((k : ℚ) / 10 ^ d) * 10 ^ d = (m : ℚ) := by
      have : (-(k : ℚ)) = m := by exact_mod_cast hm
      rw [← this]; field_simp
    rw [e, roundEven_nat]
    have : (k : ℚ) = -m := by have : (-(k : ℚ)) = m := by exact_mod_cast hm
                              linarith
    rw [this]; ring
  · rw [if_neg h]
    have hk : 0 ≤ k := by
      by_contra h0
      push Not at h0
      have : (k : ℚ) < 0 := by exact_mod_cast h0
      exact h (div_neg_of_neg_of_pos this hp)
    obtain ⟨m, rfl⟩ := Int.eq_ofNat_of_zero_le hk
    have e : (((m : ℤ) : ℚ) / 10 ^ d) * 10 ^ d = (m : ℚ) := by field_simp; simp
    rw [e, roundEven_nat]; simp

theorem rnd_grid (d : ℕ) (q : ℚ) : ∃ k : ℤ, rnd d q = (k : ℚ) / 10 ^ d := by
  unfold rnd
  split
  · exact ⟨-(roundEven (-q * 10 ^ d) : ℤ), by push_cast; ring⟩
  · exact ⟨(roundEven (q * 10 ^ d) : ℤ), by push_cast; rfl⟩

theorem rnd_idem (d : ℕ) (q : ℚ) : rnd d (rnd d q) = rnd d q := by
  obtain ⟨k, hk⟩ := rnd_grid d q
  rw [hk, rnd_fix]

/-- Rounding is to the nearest: no number with `d` decimals is closer. -/
theorem C76_rnd_nearest (d : ℕ) (q : ℚ) (k : ℤ) : |rnd d q - q| ≤ |(k : ℚ) / 10 ^ d - q| := by
  have hp : (0 : ℚ) < 10 ^ d := by positivity
  obtain ⟨m, hm⟩ := rnd_grid d q
  have h1 := rnd_near d q
  by_cases hk : m = k
  · rw [hm, hk]
  · have h2 : (1 : ℚ) / 10 ^ d ≤ |(k : ℚ) / 10 ^ d - rnd d q| := by
      rw [hm, ← sub_div, abs_div, abs_of_pos hp]
      apply div_le_div_of_nonneg_right _ hp.le
      have : (1 : ℤ) ≤ |k - m| := Int.one_le_abs (by omega)
      exact_mod_cast this
    have h3 : |(k : ℚ) / 10 ^ d - rnd d q| ≤ |(k : ℚ) / 10 ^ d - q| + |rnd d q - q| := by
      have := abs_sub_le ((k : ℚ) / 10 ^ d) q (rnd d q)
      rwa [abs_sub_comm q] at this
    have h4 : (1 : ℚ) / 2 / 10 ^ d + 1 / 2 / 10 ^ d = 1 / 10 ^ d := by ring
    linarith

/-! ### Columns of texts -/

/-- The condition under which names survive: none is read as missing, and some name is neither a number nor a truth value. -/
def NamesOk (other : String → Option ℚ) (l : List String) : Prop :=
  (∀ s ∈ l, s ∉ naTexts) ∧ (l = [] ∨ ∃ s ∈ l, fltText other s = none ∧ boolText s = none)

theorem readColumn_ok (other : String → Option ℚ) (l : List String) (h : NamesOk other l) : readColumn other l = l.map Cell.text := by
  obtain ⟨h1, h2⟩ := h
  rcases h2 with rfl | ⟨s, hs, hf, hb⟩
  · simp [readColumn]
  have hi : intText s = none := by
    unfold fltText at hf
    cases hc : intText s with
    | none => rfl
    | some n => rw [hc] at hf; cases hf
  have e1 : l.all (fun s => (intText s).isSome) = false := by
    rw [List.all_eq_false]; exact ⟨s, hs, by simp [hi]⟩
  have e2 : allAre (fltText other) l = false := by
    unfold allAre; rw [List.all_eq_false]; exact ⟨s, hs, by simp [hf, h1 s hs]⟩
  have e3 : allAre boolText l = false := by
    unfold allAre; rw [List.all_eq_false]; exact ⟨s, hs, by simp [hb, h1 s hs]⟩
  unfold readColumn
  rw [e1, e2, e3]
  simp only [Bool.false_eq_true, if_false]
  apply List.map_congr_left
  intro a ha
  simp [cellAs, h1 a ha]

theorem readColumn_length (other : String → Option ℚ) (l : List String) : (readColumn other l).length = l.length := by
  unfold readColumn; split_ifs <;> simp

/-- Names that are read as missing become NaN, whatever the others are. -/
theorem readColumn_na (other : String → Option ℚ) (l : List String) (i : ℕ) (s : String) (hi : l[i]? = some s) (hs : s ∈ naTexts) :
    (readColumn other l)[i]? = some .nan := by
  unfold readColumn
  split_ifs <;> simp [List.getElem?_map, hi, cellAs, hs]

theorem readColumn_int (other : String → Option ℚ) (l : List String) (h : ∀ s ∈ l, s.toList ≠ [] ∧ s.toList.all Char.isDigit = true) :
    readColumn other l = l.map (fun s => Cell.int (Foxes.Factory.digitsVal s.toList)) := by
  have e : l.all (fun s => (intText s).isSome) = true := by
    rw [List.all_eq_true]; intro s hs
    unfold intText; rw [if_pos (h s hs)]; rfl
  unfold readColumn
  rw [e, if_pos rfl]
  apply List.map_congr_left
  intro s hs
  have hna : s ∉ naTexts := by
    intro hm
    have := h s hs
    have key : ∀ s ∈ naTexts, ¬ (s.toList ≠ [] ∧ s.toList.all Char.isDigit = true) := by decide +kernel
    exact key s hm this
  unfold cellAs
  rw [if_neg hna]
  have e2 : intText s = some (Foxes.Factory.digitsVal s.toList) := by unfold intText; rw [if_pos (h s hs)]
  simp only [e2]; rfl

/-! ### The csv file -/

theorem writeCsv_farm (pr : ℚ → String) (types : Option (List String)) (ts : List Turb) :
    writeCsv pr .farm types ts = .ok (ts.mapIdx (fun i t => csvRow pr types i t (t.x, t.y, toFlt t.H))) := by
  simp only [writeCsv, layoutData, Except.map]
  congr 1
  apply List.ext_getElem?
  intro i
  simp only [List.getElem?_mapIdx]
  cases h : ts[i]? with
  | none =>
    have : (List.zip ts (ts.map (fun t => (t.x, t.y, toFlt t.H))))[i]? = none := by
      rw [List.getElem?_eq_none_iff] at h ⊢
      simpa using h
    simp [this]
  | some t =>
    have : (List.zip ts (ts.map (fun t => (t.x, t.y, toFlt t.H))))[i]? = some (t, (t.x, t.y, toFlt t.H)) := by
      rw [List.getElem?_zip_eq_some]
      exact ⟨h, by simp [h]⟩
    simp [this]

/-- The file of `write_csv` has one row per turbine, in the order of the farm: its number, the text of its name, coordinates within half of
1e-4, the height (empty if there is none) and the diameter. -/
theorem C76_csv_file (pr : ℚ → String) (types : Option (List String)) (ts : List Turb) :
    ∃ rows, writeCsv pr .farm types ts = .ok rows ∧ rows.length = ts.length ∧
      ∀ (i : ℕ) (t : Turb), ts[i]? = some t → ∃ r, rows[i]? = some r ∧ r.index = i ∧ r.name = cellText pr t.name ∧ |r.x - t.x| ≤ 1 / 20000 ∧ |r.y - t.y| ≤ 1 / 20000 ∧
        (∀ q, t.H = some (.val q) → ∃ h, r.h = some h ∧ |h - q| ≤ 1 / 20000) ∧ (t.H = none ∨ t.H = some .nan → r.h = none) ∧
        (∀ q, t.D = some (.val q) → r.D = some q) ∧ (t.D = none ∨ t.D = some .nan → r.D = none) := by
  refine ⟨_, writeCsv_farm pr types ts, by simp, ?_⟩
  intro i t h
  have hn := fun q : ℚ => rnd_near 4 q
  norm_num at hn
  refine ⟨csvRow pr types i t (t.x, t.y, toFlt t.H), by simp [List.getElem?_mapIdx, h], rfl, rfl, by norm_num; exact hn _, by norm_num; exact hn _, ?_, ?_, ?_, ?_⟩
  · intro q hq
    exact ⟨rnd 4 q, by simp [csvRow, hq, toFlt, rndF, cellOf], by norm_num; exact hn q⟩
  · rintro (hq | hq) <;> simp [csvRow, hq, toFlt, rndF, cellOf]
  · intro q hq; simp [csvRow, hq, toFlt, cellOf]
  · rintro (hq | hq) <;> simp [csvRow, hq, toFlt, cellOf]

/-- the types are written in the column asked for -/
theorem C76_csv_types (pr : ℚ → String) (types : List String) (ts : List Turb) (hl : types.length = ts.length) :
    ∃ rows, writeCsv pr .farm (some types) ts = .ok rows ∧ rows.map CsvRow.ttype = types.map some := by
  refine ⟨_, writeCsv_farm pr (some types) ts, ?_⟩
  apply List.ext_getElem?
  intro i
  simp only [List.getElem?_map, List.getElem?_mapIdx, Option.map_map]
  by_cases h : i < ts.length
  · have h' : i < types.length := by omega
    simp [h, h', csvRow]
  · have h' : ¬ i < types.length := by omega
    rw [List.getElem?_eq_none (by omega), List.getElem?_eq_none (by omega)]; rfl

/-- the names of all turbines as texts -/
def namesOf (pr : ℚ → String) (ts : List Turb) : List String := ts.map (fun t => cellText pr t.name)

theorem rows_names (pr : ℚ → String) (types : Option (List String)) (ts : List Turb) :
    (ts.mapIdx (fun i t => csvRow pr types i t (t.x, t.y, toFlt t.H))).map CsvRow.name = namesOf pr ts := by
  apply List.ext_getElem?
  intro i
  simp only [List.getElem?_map, List.getElem?_mapIdx, namesOf]
  cases ts[i]? <;> rfl

/-- What `add_from_csv` makes of a file that `write_csv` wrote, for any parameters. -/
theorem readCsv_write (pr : ℚ → String) (other : String → Option ℚ) (P : ReadPars) (hT : P.colType = false) (farm ts : List Turb) (types : Option (List String)) :
    ∃ rows, writeCsv pr .farm types ts = .ok rows ∧ ∃ out, readCsv other P farm rows = .ok (farm ++ out) ∧ out.length = ts.length ∧
      ∀ (i : ℕ) (t : Turb), ts[i]? = some t → ∃ n, (readColumn other (namesOf pr ts))[i]? = some n ∧
        out[i]? = some (readRow P i n (csvRow pr types i t (t.x, t.y, toFlt t.H)) (farm.length + i)) := by
  refine ⟨_, writeCsv_farm pr types ts, (List.zip (readColumn other ((ts.mapIdx (fun i t => csvRow pr types i t (t.x, t.y, toFlt t.H))).map CsvRow.name))
    (ts.mapIdx (fun i t => csvRow pr types i t (t.x, t.y, toFlt t.H)))).mapIdx (fun i p => readRow P i p.1 p.2 (farm.length + i)), ?_, ?_, ?_⟩
  · unfold readCsv
    rw [if_neg (by simp [hT])]
  · simp [readColumn_length]
  · intro i t h
    have hi : i < ts.length := by
      by_contra hc
      rw [List.getElem?_eq_none (by omega)] at h
      cases h
    have hl : i < (readColumn other (namesOf pr ts)).length := by rw [readColumn_length]; simpa [namesOf] using hi
    refine ⟨(readColumn other (namesOf pr ts))[i], List.getElem?_eq_getElem hl, ?_⟩
    rw [List.getElem?_mapIdx, rows_names]
    have : (List.zip (readColumn other (namesOf pr ts)) (ts.mapIdx (fun i t => csvRow pr types i t (t.x, t.y, toFlt t.H))))[i]? =
        some ((readColumn other (namesOf pr ts))[i], csvRow pr types i t (t.x, t.y, toFlt t.H)) := by
      rw [List.getElem?_zip_eq_some]
      exact ⟨List.getElem?_eq_getElem hl, by simp [List.getElem?_mapIdx, h]⟩
    rw [this]; rfl

/-- the parameters to read everything that was written -/
def full (models : List String) : ReadPars := ⟨true, true, true, false, "T", false, none, none, models⟩

/-- Writing a layout to csv and reading it again, with the columns for names, heights and diameters, gives the same turbines in the same order:
the same names (if they survive `pandas`, `NamesOk`), the same diameters, positions and heights within half of 1e-4; the indices are the
positions in the farm. -/
theorem C76_csv_roundtrip (pr : ℚ → String) (other : String → Option ℚ) (models : List String) (farm ts : List Turb)
    (hn : ∀ t ∈ ts, ∃ s, t.name = .text s) (hok : NamesOk other (namesOf pr ts))
    (hH : ∀ t ∈ ts, ∃ q, t.H = some (.val q)) (hD : ∀ t ∈ ts, ∃ q, t.D = some (.val q)) :
    ∃ rows, writeCsv pr .farm none ts = .ok rows ∧ ∃ out, readCsv other (full models) farm rows = .ok (farm ++ out) ∧ out.length = ts.length ∧
      ∀ (i : ℕ) (t : Turb), ts[i]? = some t → ∃ u, out[i]? = some u ∧ u.name = t.name ∧ u.index = .py (farm.length + i) ∧ |u.x - t.x| ≤ 1 / 20000 ∧ |u.y - t.y| ≤ 1 / 20000 ∧
        (∃ a b, t.H = some (.val a) ∧ u.H = some (.val b) ∧ |b - a| ≤ 1 / 20000) ∧ u.D = t.D ∧ u.models = models := by
  obtain ⟨rows, hw, out, hr, hl, hv⟩ := readCsv_write pr other (full models) rfl farm ts none
  refine ⟨rows, hw, out, hr, hl, ?_⟩
  intro i t h
  obtain ⟨n, hni, ho⟩ := hv i t h
  have hm : t ∈ ts := List.mem_of_getElem? h
  obtain ⟨s, hs⟩ := hn t hm
  obtain ⟨a, ha⟩ := hH t hm
  obtain ⟨b, hb⟩ := hD t hm
  have hnn : n = t.name := by
    rw [readColumn_ok other _ hok] at hni
    simp [namesOf, h, hs, cellText] at hni
    rw [hs, ← hni]
  have hnear := fun q : ℚ => rnd_near 4 q
  norm_num at hnear
  refine ⟨_, ho, by simp [readRow, full, hnn], by simp [readRow], by norm_num [readRow, csvRow]; exact hnear _, by norm_num [readRow, csvRow]; exact hnear _,
    ⟨a, rnd 4 a, ha, by simp [readRow, full, csvRow, ha, toFlt, rndF, cellOf, readFlt], by norm_num; exact hnear a⟩,
    by simp [readRow, full, csvRow, hb, toFlt, cellOf, readFlt], by simp [readRow, full]⟩

/-- If all coordinates and heights have at most four decimals and the indices are the positions, the farm comes back exactly. -/
theorem C76_csv_exact (pr : ℚ → String) (other : String → Option ℚ) (models : List String) (ts : List Turb)
    (hn : ∀ t ∈ ts, ∃ s, t.name = .text s) (hok : NamesOk other (namesOf pr ts))
    (hx : ∀ t ∈ ts, ∃ a b c : ℤ, t.x = a / 10 ^ 4 ∧ t.y = b / 10 ^ 4 ∧ t.H = some (.val (c / 10 ^ 4)))
    (hD : ∀ t ∈ ts, ∃ q, t.D = some (.val q)) (hi : ∀ (i : ℕ) (t : Turb), ts[i]? = some t → t.index = .py i) (hm : ∀ t ∈ ts, t.models = models) :
    ∃ rows, writeCsv pr .farm none ts = .ok rows ∧ readCsv other (full models) [] rows = .ok ts := by
  obtain ⟨rows, hw, out, hr, hl, hv⟩ := readCsv_write pr other (full models) rfl [] ts none
  refine ⟨rows, hw, ?_⟩
  rw [hr, List.nil_append]
  congr 1
  apply List.ext_getElem?
  intro i
  cases h : ts[i]? with
  | none =>
    rw [List.getElem?_eq_none_iff] at h ⊢
    omega
  | some t =>
    obtain ⟨n, hni, ho⟩ := hv i t h
    have hmem : t ∈ ts := List.mem_of_getElem? h
    obtain ⟨s, hs⟩ := hn t hmem
    obtain ⟨a, b, c, ha, hb, hc⟩ := hx t hmem
    obtain ⟨q, hq⟩ := hD t hmem
    have hnn : n = t.name := by
      rw [readColumn_ok other _ hok] at hni
      simp [namesOf, h, hs, cellText] at hni
      rw [hs, ← hni]
    rw [ho]
    have hix := hi i t h
    have hmm := hm t hmem
    have ea := rnd_fix 4 a
    have eb := rnd_fix 4 b
    have ec := rnd_fix 4 c
    obtain ⟨tn, ti, tx, ty, tH, tD, tm⟩ := t
    simp only at ha hb hc hq hnn hix hmm
    subst ha hb hc hq hix hmm
    simp [readRow, full, csvRow, toFlt, rndF, cellOf, readFlt, hnn, ea, eb, ec]

theorem cellOf_readFlt (o : Option ℚ) : cellOf (readFlt o) = o := by cases o <;> rfl

theorem cellOf_rnd (f : Flt) : cellOf (rndF 4 (readFlt (cellOf (rndF 4 f)))) = cellOf (rndF 4 f) := by
  cases f with
  | nan => rfl
  | val q => simp [rndF, cellOf, readFlt, rnd_idem]

/-- Writing what was read gives the same file again: nothing drifts in repeated round trips. -/
theorem C76_csv_again (pr : ℚ → String) (other : String → Option ℚ) (models : List String) (ts : List Turb)
    (hok : NamesOk other (namesOf pr ts)) :
    ∃ rows, writeCsv pr .farm none ts = .ok rows ∧ ∃ out, readCsv other (full models) [] rows = .ok out ∧ writeCsv pr .farm none out = .ok rows := by
  obtain ⟨rows, hw, out, hr, hl, hv⟩ := readCsv_write pr other (full models) rfl [] ts none
  refine ⟨rows, hw, out, by simpa using hr, ?_⟩
  rw [writeCsv_farm] at hw ⊢
  rw [← hw]
  congr 1
  apply List.ext_getElem?
  intro i
  simp only [List.getElem?_mapIdx]
  cases h : ts[i]? with
  | none =>
    have : out[i]? = none := by
      rw [List.getElem?_eq_none_iff] at h ⊢
      omega
    rw [this]
  | some t =>
    obtain ⟨n, hni, ho⟩ := hv i t h
    rw [readColumn_ok other _ hok] at hni
    simp [namesOf, h] at hni
    rw [ho]
    simp [csvRow, readRow, full, toFlt, cellOf_readFlt, rnd_idem, ← hni, cellText, cellOf_rnd]

/-- The column of types: written, and read as the first model of each turbine. Asking for it in a file without it raises KeyError. -/
theorem C76_csv_types_read (pr : ℚ → String) (other : String → Option ℚ) (P : ReadPars) (hP : P.colType = true) (ts : List Turb) (types : List String)
    (hl : types.length = ts.length) :
    (∃ rows out, writeCsv pr .farm (some types) ts = .ok rows ∧ readCsv other P [] rows = .ok out ∧ out.map Turb.models = types.map (fun m => m :: P.models)) ∧
    (ts ≠ [] → ∃ rows, writeCsv pr .farm none ts = .ok rows ∧ readCsv other P [] rows = .error .keyError) := by
  constructor
  · refine ⟨_, (List.zip (readColumn other ((ts.mapIdx (fun i t => csvRow pr (some types) i t (t.x, t.y, toFlt t.H))).map CsvRow.name))
        (ts.mapIdx (fun i t => csvRow pr (some types) i t (t.x, t.y, toFlt t.H)))).mapIdx (fun i p => readRow P i p.1 p.2 (0 + i)),
        writeCsv_farm pr (some types) ts, ?_, ?_⟩
    · unfold readCsv
      rw [if_neg]
      · rfl
      · rintro ⟨_, r, hr, hn⟩
        obtain ⟨i, hi, rfl⟩ := List.mem_mapIdx.mp hr
        have : i < types.length := by omega
        simp [csvRow, this] at hn
    · apply List.ext_getElem?
      intro i
      by_cases h : i < ts.length
      · have h' : i < types.length := by omega
        have hc : i < (readColumn other (namesOf pr ts)).length := by rw [readColumn_length]; simpa [namesOf] using h
        rw [List.getElem?_map, List.getElem?_mapIdx, rows_names]
        have : (List.zip (readColumn other (namesOf pr ts)) (ts.mapIdx (fun i t => csvRow pr (some types) i t (t.x, t.y, toFlt t.H))))[i]? =
            some ((readColumn other (namesOf pr ts))[i], csvRow pr (some types) i ts[i] (ts[i].x, ts[i].y, toFlt ts[i].H)) := by
          rw [List.getElem?_zip_eq_some]
          exact ⟨List.getElem?_eq_getElem hc, by simp [h]⟩
        rw [this]
        simp [readRow, hP, csvRow, h']
      · rw [List.getElem?_eq_none (by simp; omega), List.getElem?_eq_none (by simp; omega)]
  · intro hne
    refine ⟨_, writeCsv_farm pr none ts, ?_⟩
    unfold readCsv
    rw [if_pos]
    refine ⟨hP, ?_⟩
    obtain ⟨t, l, rfl⟩ := List.exists_cons_of_ne_nil hne
    exact ⟨csvRow pr none 0 t (t.x, t.y, toFlt t.H), by simp, rfl⟩

/-- False of the code: a turbine without a height of its own (the height of its type is used) is the same after writing and reading. The height is
NaN then, so is the height in the calculation, for every type. Likewise for the diameter. -/
theorem C76_csv_none_lost (pr : ℚ → String) (other : String → Option ℚ) (models : List String) (ts : List Turb) (i : ℕ) (t : Turb)
    (hi : ts[i]? = some t) :
    ∃ rows, writeCsv pr .farm none ts = .ok rows ∧ ∃ out, readCsv other (full models) [] rows = .ok out ∧ ∃ u, out[i]? = some u ∧
      (t.H = none → ∀ h, used t.H h = .val h ∧ used u.H h = .nan) ∧ (t.D = none → ∀ d, used t.D d = .val d ∧ used u.D d = .nan) := by
  obtain ⟨rows, hw, out, hr, hl, hv⟩ := readCsv_write pr other (full models) rfl [] ts none
  obtain ⟨n, hni, ho⟩ := hv i t hi
  refine ⟨rows, hw, out, by simpa using hr, _, ho, ?_, ?_⟩
  · intro h a; rw [h]; exact ⟨rfl, by simp [used, readRow, full, csvRow, h, toFlt, rndF, cellOf, readFlt]⟩
  · intro h a; rw [h]; exact ⟨rfl, by simp [used, readRow, full, csvRow, h, toFlt, cellOf, readFlt]⟩

/-- With the default parameters of `add_from_csv` only the positions are read: names are T0, T1, ..., heights and diameters are those of the
parameters. -/
theorem C76_csv_defaults (pr : ℚ → String) (other : String → Option ℚ) (H D : Option Flt) (models : List String) (ts : List Turb) (types : Option (List String)) :
    ∃ rows, writeCsv pr .farm types ts = .ok rows ∧ ∃ out, readCsv other ⟨false, false, false, false, "T", false, H, D, models⟩ [] rows = .ok out ∧
      out.length = ts.length ∧
      ∀ (i : ℕ) (t : Turb), ts[i]? = some t → ∃ u, out[i]? = some u ∧ u.name = .text ("T" ++ toString i) ∧ |u.x - t.x| ≤ 1 / 20000 ∧ |u.y - t.y| ≤ 1 / 20000 ∧
        u.H = H ∧ u.D = D ∧ u.models = models := by
  obtain ⟨rows, hw, out, hr, hl, hv⟩ := readCsv_write pr other ⟨false, false, false, false, "T", false, H, D, models⟩ rfl [] ts types
  refine ⟨rows, hw, out, by simpa using hr, hl, ?_⟩
  intro i t h
  obtain ⟨n, hni, ho⟩ := hv i t h
  have hnear := fun q : ℚ => rnd_near 4 q
  norm_num at hnear
  exact ⟨_, ho, by simp [readRow], by norm_num [readRow, csvRow]; exact hnear _, by norm_num [readRow, csvRow]; exact hnear _, rfl, rfl, rfl⟩

/-- False of the code: names are texts after reading. If all names are strings of digits they become numbers, so different names can
become the same, and the farm cannot be written to json any more. -/
theorem C76_csv_digit_names (pr : ℚ → String) (other : String → Option ℚ) (models : List String) (ts : List Turb)
    (hd : ∀ s ∈ namesOf pr ts, s.toList ≠ [] ∧ s.toList.all Char.isDigit = true) :
    ∃ rows, writeCsv pr .farm none ts = .ok rows ∧ ∃ out, readCsv other (full models) [] rows = .ok out ∧ out.length = ts.length ∧
      ∀ (i : ℕ) (t : Turb), ts[i]? = some t → ∃ u, out[i]? = some u ∧ u.name = .int (Foxes.Factory.digitsVal (cellText pr t.name).toList) := by
  obtain ⟨rows, hw, out, hr, hl, hv⟩ := readCsv_write pr other (full models) rfl [] ts none
  refine ⟨rows, hw, out, by simpa using hr, hl, ?_⟩
  intro i t h
  obtain ⟨n, hni, ho⟩ := hv i t h
  rw [readColumn_int other _ hd] at hni
  simp [namesOf, h] at hni
  exact ⟨_, ho, by simp [readRow, full, ← hni]⟩

/-- False of the code: every name survives. A turbine called like a missing value, such as "NA" or "None", has the name NaN afterwards. -/
theorem C76_csv_na_names (pr : ℚ → String) (other : String → Option ℚ) (models : List String) (ts : List Turb) (i : ℕ) (t : Turb)
    (hi : ts[i]? = some t) (hs : cellText pr t.name ∈ naTexts) :
    ∃ rows, writeCsv pr .farm none ts = .ok rows ∧ ∃ out, readCsv other (full models) [] rows = .ok out ∧ ∃ u, out[i]? = some u ∧ u.name = .nan := by
  obtain ⟨rows, hw, out, hr, hl, hv⟩ := readCsv_write pr other (full models) rfl [] ts none
  obtain ⟨n, hni, ho⟩ := hv i t hi
  rw [readColumn_na other _ i (cellText pr t.name) (by simp [namesOf, hi]) hs] at hni
  cases hni
  exact ⟨rows, hw, out, by simpa using hr, _, ho, by simp [readRow, full]⟩

/-- The coordinates from results are those of the chosen state, for csv files: whatever the positions of the turbines. -/
theorem C76_csv_results (pr : ℚ → String) (types : Option (List String)) (ts : List Turb) (xyh : List (List (ℚ × ℚ × ℚ))) (s : ℕ) (row : List (ℚ × ℚ × ℚ))
    (hs : xyh[s]? = some row) (hl : row.length = ts.length) :
    ∃ rows, writeCsv pr (.results xyh s) types ts = .ok rows ∧ rows.length = ts.length ∧
      ∀ (i : ℕ) (p : ℚ × ℚ × ℚ), row[i]? = some p → ∃ r h, rows[i]? = some r ∧ |r.x - p.1| ≤ 1 / 20000 ∧ |r.y - p.2.1| ≤ 1 / 20000 ∧ r.h = some h ∧ |h - p.2.2| ≤ 1 / 20000 := by
  have hnear := fun q : ℚ => rnd_near 4 q
  norm_num at hnear
  refine ⟨_, by simp [writeCsv, layoutData, hs, hl, Except.map]; rfl, by simp [hl], ?_⟩
  intro i p hp
  have hi : i < ts.length := by
    by_contra hc
    rw [List.getElem?_eq_none (by omega)] at hp
    cases hp
  refine ⟨csvRow pr types i ts[i] (p.1, p.2.1, .val p.2.2), rnd 4 p.2.2, ?_, by norm_num [csvRow]; exact hnear _, by norm_num [csvRow]; exact hnear _,
    by simp [csvRow, rndF, cellOf], by norm_num; exact hnear _⟩
  have : (List.zip ts (row.map (fun p => (p.1, p.2.1, Flt.val p.2.2))))[i]? = some (ts[i], (p.1, p.2.1, .val p.2.2)) := by
    rw [List.getElem?_zip_eq_some]
    exact ⟨List.getElem?_eq_getElem hi, by simp [hp]⟩
  simp only [List.getElem?_mapIdx]
  rw [this]; rfl

/-! ### The json file -/

theorem put_new {β : Type} (k : Cell) (v : β) (l : List (Cell × β)) (h : k ∉ l.map Prod.fst) : put k v l = l ++ [(k, v)] := by
  induction l with
  | nil => rfl
  | cons p l ih =>
    simp only [List.map_cons, List.mem_cons, not_or] at h
    unfold put
    rw [if_neg (fun e => h.1 e.symm), ih h.2]; rfl

theorem put_keys {β : Type} (k : Cell) (v : β) (l : List (Cell × β)) :
    (put k v l).map Prod.fst = if k ∈ l.map Prod.fst then l.map Prod.fst else l.map Prod.fst ++ [k] := by
  induction l with
  | nil => simp [put]
  | cons p l ih =>
    unfold put
    by_cases h : p.1 = k
    · rw [if_pos h, if_pos (by simp [h])]; simp [h]
    · rw [if_neg h, List.map_cons, ih, List.map_cons]
      by_cases h2 : k ∈ l.map Prod.fst
      · rw [if_pos h2, if_pos (List.mem_cons_of_mem _ h2)]
      · rw [if_neg h2, if_neg (by simp only [List.mem_cons, not_or]; exact ⟨fun e => h e.symm, h2⟩)]; rfl

theorem foldl_put_new {γ β : Type} (key : γ → Cell) (val : γ → β) (l : List γ) :
    ∀ acc : List (Cell × β), (acc.map Prod.fst ++ l.map key).Nodup →
      l.foldl (fun acc p => put (key p) (val p) acc) acc = acc ++ l.map (fun p => (key p, val p)) := by
  induction l with
  | nil => intro acc _; simp
  | cons p l ih =>
    intro acc h
    have hk : key p ∉ acc.map Prod.fst := by
      intro hm
      rw [List.map_cons, List.nodup_append] at h
      exact h.2.2 _ hm _ (List.mem_cons_self) rfl
    rw [List.foldl_cons, put_new _ _ _ hk, ih]
    · simp
    · simpa using h

theorem foldl_put_keys {γ β : Type} (key : γ → Cell) (val : γ → β) (l : List γ) :
    ∀ acc : List (Cell × β), (acc.map Prod.fst).Nodup →
      ((l.foldl (fun acc p => put (key p) (val p) acc) acc).map Prod.fst).Nodup ∧
      ∀ k, k ∈ (l.foldl (fun acc p => put (key p) (val p) acc) acc).map Prod.fst ↔ k ∈ acc.map Prod.fst ∨ k ∈ l.map key := by
  induction l with
  | nil => intro acc h; exact ⟨h, by simp⟩
  | cons p l ih =>
    intro acc h
    have hn : ((put (key p) (val p) acc).map Prod.fst).Nodup := by
      rw [put_keys]
      split_ifs with hm
      · exact h
      · rw [List.nodup_append]
        refine ⟨h, by simp, ?_⟩
        intro a ha b hb
        simp only [List.mem_singleton] at hb
        subst hb
        intro e; subst e; exact hm ha
    obtain ⟨h1, h2⟩ := ih _ hn
    refine ⟨h1, ?_⟩
    intro k
    rw [List.foldl_cons, h2 k, put_keys]
    split_ifs with hm
    · simp only [List.map_cons, List.mem_cons]
      constructor
      · rintro (h | h)
        · exact Or.inl h
        · exact Or.inr (Or.inr h)
      · rintro (h | rfl | h)
        · exact Or.inl h
        · exact Or.inl hm
        · exact Or.inr h
    · simp only [List.map_cons, List.mem_cons, List.mem_append, List.not_mem_nil, or_false]
      tauto

theorem zip_self_map {α β : Type} (l : List α) (f : α → β) : List.zip l (l.map f) = l.map (fun a => (a, f a)) := by
  induction l with
  | nil => rfl
  | cons a l ih => simp [ih]

theorem layoutDict_farm (ts : List Turb) : layoutDict .farm ts = .ok (ts.foldl (fun acc t => put t.name (⟨t.index, t.name, t.x, t.y⟩ : JEntry) acc) []) := by
  simp only [layoutDict, layoutData, Except.map]
  rw [zip_self_map, List.foldl_map]

theorem dump_ok (pr : ℚ → String) (l : List (Cell × JEntry)) (f : Cell × JEntry → JFile) (h : ∀ p ∈ l, jsonEntry pr p = .ok (f p)) :
    dump pr l = .ok (l.map f) := by
  induction l with
  | nil => rfl
  | cons p l ih =>
    unfold dump
    rw [h p List.mem_cons_self, ih (fun q hq => h q (List.mem_cons_of_mem _ hq))]
    rfl

theorem dump_error (pr : ℚ → String) (l : List (Cell × JEntry)) (p : Cell × JEntry) (hp : p ∈ l) (e : Err) (h : jsonEntry pr p = .error e)
    (hT : ∀ q ∈ l, ∀ e, jsonEntry pr q = .error e → e = .typeError) : dump pr l = .error .typeError := by
  induction l with
  | nil => cases hp
  | cons a l ih =>
    unfold dump
    cases ha : jsonEntry pr a with
    | error e' => simp only; rw [hT a List.mem_cons_self e' ha]
    | ok b =>
      simp only
      rcases List.mem_cons.mp hp with rfl | hp
      · rw [h] at ha; cases ha
      · rw [ih hp (fun q hq => hT q (List.mem_cons_of_mem _ hq))]

theorem jsonEntry_error (pr : ℚ → String) (p : Cell × JEntry) (e : Err) (h : jsonEntry pr p = .error e) : e = .typeError := by
  unfold jsonEntry at h
  cases hk : jsonKey pr p.1 with
  | error e' =>
    rw [hk] at h
    cases h
    revert hk
    cases p.1 <;> intro hk <;> simp [jsonKey] at hk <;> exact hk.symm
  | ok k =>
    rw [hk] at h
    simp only at h
    cases hi : p.2.id with
    | py n => rw [hi] at h; simp [jsonIdx] at h
    | np n => rw [hi] at h; simp [jsonIdx] at h; exact h.symm

theorem read_fold (H D : Option Flt) (models : List String) (l : List (Cell × JFile)) : ∀ farm : List Turb,
    l.foldl (fun farm p => farm ++ [({ name := p.1, index := .py p.2.id, x := p.2.x, y := p.2.y, H := H, D := D, models := models } : Turb)]) farm
      = farm ++ l.map (fun p => { name := p.1, index := .py p.2.id, x := p.2.x, y := p.2.y, H := H, D := D, models := models }) := by
  induction l with
  | nil => intro farm; simp
  | cons p l ih => intro farm; rw [List.foldl_cons, ih]; simp

/-- the text and the number of a turbine whose name is a text and whose index is a Python integer -/
def fileOf (p : Cell × JEntry) : JFile :=
  ⟨match p.1 with | .text s => s | _ => "", match p.2.id with | .py n => n | .np n => n, p.2.x, p.2.y⟩

/-- If all names are different texts and all indices are Python integers, writing to json and reading gives the same turbines in the same order:
names, indices and positions exactly, and the name of the farm. Heights, diameters and models are those given to the reader: the file
has none. -/
theorem C76_json_roundtrip (pr : ℚ → String) (farmName : String) (ts farm : List Turb) (old : Disk) (H D : Option Flt) (models : List String)
    (hn : ∀ t ∈ ts, ∃ s, t.name = .text s) (hi : ∀ t ∈ ts, ∃ n, t.index = .py n) (hd : (ts.map Turb.name).Nodup) :
    ∃ f, writeJson pr .farm farmName ts old = (none, f) ∧
      readJson H D models farm f = some (farm ++ ts.map (fun t => { t with H := H, D := D, models := models }), farmName) := by
  have hfold := foldl_put_new (fun t : Turb => t.name) (fun t => (⟨t.index, t.name, t.x, t.y⟩ : JEntry)) ts [] (by simpa using hd)
  have hdump : dump pr (ts.map (fun t => (t.name, (⟨t.index, t.name, t.x, t.y⟩ : JEntry)))) =
      .ok ((ts.map (fun t => (t.name, (⟨t.index, t.name, t.x, t.y⟩ : JEntry)))).map fileOf) := by
    apply dump_ok
    intro p hp
    obtain ⟨t, ht, rfl⟩ := List.mem_map.mp hp
    obtain ⟨s, hs⟩ := hn t ht
    obtain ⟨n, hin⟩ := hi t ht
    simp [jsonEntry, jsonKey, jsonIdx, hs, hin, fileOf]
  refine ⟨.complete farmName ((ts.map (fun t => (t.name, (⟨t.index, t.name, t.x, t.y⟩ : JEntry)))).map fileOf), ?_, ?_⟩
  · simp only [writeJson, layoutDict_farm]
    rw [hfold, List.nil_append, hdump]
  · simp only [readJson]
    rw [List.map_map]
    have hkey : (ts.map (fileOf ∘ fun t => (t.name, (⟨t.index, t.name, t.x, t.y⟩ : JEntry)))).map (fun e : JFile => Cell.text e.key) = ts.map Turb.name := by
      rw [List.map_map]
      apply List.map_congr_left
      intro t ht
      obtain ⟨s, hs⟩ := hn t ht
      simp [fileOf, hs]
    have hf2 := foldl_put_new (fun e : JFile => Cell.text e.key) (fun e => e)
      (ts.map (fileOf ∘ fun t => (t.name, (⟨t.index, t.name, t.x, t.y⟩ : JEntry)))) [] (by rw [hkey]; simpa using hd)
    rw [hf2, read_fold]
    simp only [List.nil_append, List.map_map]
    congr 2
    congr 1
    apply List.map_congr_left
    intro t ht
    obtain ⟨s, hs⟩ := hn t ht
    obtain ⟨n, hin⟩ := hi t ht
    simp [fileOf, hs, hin]

/-- False of the code: each turbine of the farm is in the json file. The file is a dictionary by names: it has exactly one entry per different
name, so if a name occurs twice turbines are lost. -/
theorem C76_json_repeated (pr : ℚ → String) (farmName : String) (ts : List Turb) (old : Disk) (H D : Option Flt) (models : List String)
    (hn : ∀ t ∈ ts, ∃ s, t.name = .text s) (hi : ∀ t ∈ ts, ∃ n, t.index = .py n) :
    ∃ f out, writeJson pr .farm farmName ts old = (none, f) ∧ readJson H D models [] f = some (out, farmName) ∧
      (out.map Turb.name).Nodup ∧ (∀ n, n ∈ out.map Turb.name ↔ n ∈ ts.map Turb.name) ∧ out.length = (ts.map Turb.name).toFinset.card := by
  obtain ⟨h1, h2⟩ := foldl_put_keys (fun t : Turb => t.name) (fun t => (⟨t.index, t.name, t.x, t.y⟩ : JEntry)) ts [] (by simp)
  set dct := ts.foldl (fun acc t => put t.name (⟨t.index, t.name, t.x, t.y⟩ : JEntry) acc) [] with hdct
  have hpy : ∀ p ∈ dct, (∃ s, p.1 = .text s) ∧ ∃ n, p.2.id = .py n := by
    have key : ∀ l : List Turb, (∀ t ∈ l, ∃ s, t.name = .text s) → (∀ t ∈ l, ∃ n, t.index = .py n) → ∀ acc : List (Cell × JEntry),
        (∀ p ∈ acc, (∃ s, p.1 = .text s) ∧ ∃ n, p.2.id = .py n) →
        ∀ p ∈ l.foldl (fun acc t => put t.name (⟨t.index, t.name, t.x, t.y⟩ : JEntry) acc) acc, (∃ s, p.1 = .text s) ∧ ∃ n, p.2.id = .py n := by
      intro l
      induction l with
      | nil => intro _ _ acc h; exact h
      | cons t l ih =>
        intro a b acc h
        apply ih (fun t ht => a t (List.mem_cons_of_mem _ ht)) (fun t ht => b t (List.mem_cons_of_mem _ ht))
        have hput : ∀ (acc : List (Cell × JEntry)), (∀ p ∈ acc, (∃ s, p.1 = .text s) ∧ ∃ n, p.2.id = .py n) →
            ∀ p ∈ put t.name (⟨t.index, t.name, t.x, t.y⟩ : JEntry) acc, (∃ s, p.1 = .text s) ∧ ∃ n, p.2.id = .py n := by
          intro acc
          induction acc with
          | nil =>
            intro _ p hp
            simp only [put, List.mem_singleton] at hp
            subst hp
            exact ⟨a t List.mem_cons_self, b t List.mem_cons_self⟩
          | cons q acc ih2 =>
            intro h p hp
            unfold put at hp
            split_ifs at hp with hq
            · rcases List.mem_cons.mp hp with rfl | hp
              · exact ⟨a t List.mem_cons_self, b t List.mem_cons_self⟩
              · exact h p (List.mem_cons_of_mem _ hp)
            · rcases List.mem_cons.mp hp with rfl | hp
              · exact h _ List.mem_cons_self
              · exact ih2 (fun p hp => h p (List.mem_cons_of_mem _ hp)) p hp
        exact hput acc h
    exact key ts hn hi [] (by simp)
  have hdump : dump pr dct = .ok (dct.map fileOf) := by
    apply dump_ok
    intro p hp
    obtain ⟨⟨s, hs⟩, ⟨n, hin⟩⟩ := hpy p hp
    simp [jsonEntry, jsonKey, jsonIdx, hs, hin, fileOf]
  have hkey : (dct.map fileOf).map (fun e : JFile => Cell.text e.key) = dct.map Prod.fst := by
    rw [List.map_map]
    apply List.map_congr_left
    intro p hp
    obtain ⟨⟨s, hs⟩, _⟩ := hpy p hp
    simp [fileOf, hs]
  have hf2 := foldl_put_new (fun e : JFile => Cell.text e.key) (fun e => e) (dct.map fileOf) [] (by rw [hkey]; simpa using h1)
  have hnames : (((dct.map fileOf).map (fun e : JFile => (Cell.text e.key, e))).map
      (fun p => ({ name := p.1, index := .py p.2.id, x := p.2.x, y := p.2.y, H := H, D := D, models := models } : Turb))).map Turb.name = dct.map Prod.fst := by
    rw [← hkey]; simp [List.map_map, Function.comp_def]
  refine ⟨.complete farmName (dct.map fileOf), ((dct.map fileOf).map (fun e : JFile => (Cell.text e.key, e))).map
      (fun p => ({ name := p.1, index := .py p.2.id, x := p.2.x, y := p.2.y, H := H, D := D, models := models } : Turb)), ?_, ?_, ?_, ?_, ?_⟩
  · simp only [writeJson, layoutDict_farm]
    rw [← hdct, hdump]
  · simp only [readJson]
    rw [hf2, read_fold]; rfl
  · rw [hnames]; exact h1
  · intro n; rw [hnames, h2 n]; simp
  · have : (dct.map Prod.fst).toFinset = (ts.map Turb.name).toFinset := by
      ext k; rw [List.mem_toFinset, List.mem_toFinset, h2 k]; simp
    rw [← this, List.toFinset_card_of_nodup h1]; simp

theorem C76_json_loses (pr : ℚ → String) (farmName : String) (ts : List Turb) (old : Disk) (H D : Option Flt) (models : List String)
    (hn : ∀ t ∈ ts, ∃ s, t.name = .text s) (hi : ∀ t ∈ ts, ∃ n, t.index = .py n) (hd : ¬ (ts.map Turb.name).Nodup) :
    ∃ f out, writeJson pr .farm farmName ts old = (none, f) ∧ readJson H D models [] f = some (out, farmName) ∧ out.length < ts.length := by
  obtain ⟨f, out, h1, h2, _, _, h3⟩ := C76_json_repeated pr farmName ts old H D models hn hi
  refine ⟨f, out, h1, h2, ?_⟩
  rw [h3]
  have hle := List.toFinset_card_le (ts.map Turb.name)
  rw [List.length_map] at hle
  rcases Nat.lt_or_ge (ts.map Turb.name).toFinset.card ts.length with h | h
  · exact h
  · exfalso
    apply hd
    have : (ts.map Turb.name).toFinset.card = (ts.map Turb.name).length := by rw [List.length_map]; omega
    rw [List.card_toFinset] at this
    have h' := (List.dedup_sublist (ts.map Turb.name)).eq_of_length this
    rw [← h']; exact List.nodup_dedup _

/-- False of the code: a farm with ids from a csv column (numpy integers) can be written to json. TypeError is raised, and a file that was
there before is destroyed. Likewise for names that are numpy integers, as read from csv. -/
theorem C76_json_numpy (pr : ℚ → String) (farmName : String) (ts : List Turb) (old : Disk) (hd : (ts.map Turb.name).Nodup) (t : Turb) (ht : t ∈ ts)
    (h : (∃ n, t.index = .np n) ∨ ∃ n, t.name = .int n) : writeJson pr .farm farmName ts old = (some .typeError, .broken) := by
  have hfold := foldl_put_new (fun t : Turb => t.name) (fun t => (⟨t.index, t.name, t.x, t.y⟩ : JEntry)) ts [] (by simpa using hd)
  simp only [writeJson, layoutDict_farm]
  rw [hfold, List.nil_append]
  have hmem : (t.name, (⟨t.index, t.name, t.x, t.y⟩ : JEntry)) ∈ ts.map (fun t => (t.name, (⟨t.index, t.name, t.x, t.y⟩ : JEntry))) :=
    List.mem_map.mpr ⟨t, ht, rfl⟩
  have herr : ∃ e, jsonEntry pr (t.name, (⟨t.index, t.name, t.x, t.y⟩ : JEntry)) = .error e := by
    rcases h with ⟨n, hn⟩ | ⟨n, hn⟩
    · unfold jsonEntry
      cases hk : jsonKey pr t.name with
      | error e => exact ⟨e, by simp [hk]⟩
      | ok k => exact ⟨.typeError, by simp [hk, hn, jsonIdx]⟩
    · exact ⟨.typeError, by simp [jsonEntry, hn, jsonKey]⟩
  obtain ⟨e, he⟩ := herr
  rw [dump_error pr _ _ hmem e he (fun q _ e hq => jsonEntry_error pr q e hq)]

example : ∃ f, writeJson (fun _ => "") .farm "farm" [⟨.text "A", .py 3, 1, 2, none, none, []⟩, ⟨.text "B", .py 7, 5, 2, some (.val 90), none, []⟩] .absent = (none, f) ∧
    readJson none none ["NREL5MW"] [] f = some ([⟨.text "A", .py 3, 1, 2, none, none, ["NREL5MW"]⟩, ⟨.text "B", .py 7, 5, 2, none, none, ["NREL5MW"]⟩], "farm") := by
  refine ⟨_, rfl, ?_⟩
  decide +kernel

example : NamesOk (fun _ => none) ["T0", "1", "NAG"] := by
  constructor
  · decide +kernel
  · exact Or.inr ⟨"T0", by decide +kernel, by decide +kernel, by decide +kernel⟩

/-! ### Figures -/

theorem commonD_some (l : List (Option ℚ)) (d0 d : ℚ) : commonD l (some d0) = .ok d ↔ d = d0 ∧ ∀ x ∈ l, x = some d := by
  induction l with
  | nil => simp [commonD, eq_comm]
  | cons a l ih =>
    unfold commonD
    by_cases h : some d0 = a
    · rw [if_pos h, ih]
      constructor
      · rintro ⟨rfl, h2⟩
        refine ⟨rfl, ?_⟩
        intro x hx
        rcases List.mem_cons.mp hx with rfl | hx
        · exact h.symm
        · exact h2 x hx
      · rintro ⟨rfl, h2⟩
        exact ⟨rfl, fun x hx => h2 x (List.mem_cons_of_mem _ hx)⟩
    · rw [if_neg h]
      constructor
      · intro h2; cases h2
      · rintro ⟨rfl, h2⟩
        exact absurd (h2 a List.mem_cons_self).symm h

/-- The layout can be plotted in units of the diameter, without results, exactly if first there are turbines without diameter, then turbines with
the same diameter (at least one), and that is the unit. -/
theorem C76_common_D (l : List (Option ℚ)) (d : ℚ) :
    commonD l none = .ok d ↔ ∃ k m, l = List.replicate k none ++ List.replicate (m + 1) (some d) := by
  induction l with
  | nil =>
    simp only [commonD]
    constructor
    · intro h; cases h
    · rintro ⟨k, m, h⟩
      have := congrArg List.length h
      simp at this
  | cons a l ih =>
    unfold commonD
    cases a with
    | none =>
      rw [ih]
      constructor
      · rintro ⟨k, m, rfl⟩
        exact ⟨k + 1, m, rfl⟩
      · rintro ⟨k, m, h⟩
        cases k with
        | zero => simp [List.replicate_succ] at h
        | succ k => exact ⟨k, m, by simpa [List.replicate_succ] using h⟩
    | some d0 =>
      rw [commonD_some]
      constructor
      · rintro ⟨rfl, h⟩
        refine ⟨0, l.length, ?_⟩
        simp only [List.replicate_zero, List.nil_append, List.replicate_succ, List.cons.injEq, true_and]
        exact List.eq_replicate_iff.mpr ⟨rfl, h⟩
      · rintro ⟨k, m, h⟩
        cases k with
        | zero =>
          simp only [List.replicate_zero, List.nil_append, List.replicate_succ, List.cons.injEq, Option.some.injEq] at h
          refine ⟨h.1.symm, ?_⟩
          rw [h.2]
          intro x hx
          exact List.eq_of_mem_replicate hx
        | succ k => simp [List.replicate_succ] at h

/-- False of the code: whether this works does not depend on the order of the turbines. -/
theorem C76_common_D_order (k m : ℕ) (d : ℚ) : commonD (List.replicate (k + 1) none ++ List.replicate (m + 1) (some d)) none = .ok d ∧
    commonD (List.replicate (m + 1) (some d) ++ List.replicate (k + 1) none) none = .error .valueError := by
  refine ⟨(C76_common_D _ d).mpr ⟨k + 1, m, rfl⟩, ?_⟩
  cases h : commonD (List.replicate (m + 1) (some d) ++ List.replicate (k + 1) none) none with
  | error e =>
    have : ∀ (l : List (Option ℚ)) (o : Option ℚ) (e : Err), commonD l o = .error e → e = .valueError := by
      intro l
      induction l with
      | nil => intro o e h; cases o <;> simp [commonD] at h; exact h.symm
      | cons a l ih =>
        intro o e h
        cases o with
        | none => exact ih _ _ (by simpa [commonD] using h)
        | some q =>
          unfold commonD at h
          split_ifs at h
          · exact ih _ _ h
          · cases h; rfl
    rw [this _ _ _ h]
  | ok e =>
    exfalso
    simp only [List.replicate_succ, List.cons_append, commonD] at h
    rw [commonD_some] at h
    have := h.2 none (by simp)
    cases this

/-- a table of values by state and turbine -/
def table (S n : ℕ) (f : ℕ → ℕ → ℚ) : List (List ℚ) := (List.range S).map (fun s => (List.range n).map (f s))

theorem column_table (S n : ℕ) (f : ℕ → ℕ → ℚ) (t : ℕ) (ht : t < n) : column t (table S n f) = (List.range S).map (fun s => f s t) := by
  simp [column, table, List.getD, ht, Function.comp_def]

theorem zipWith_range (S : ℕ) (f g : ℕ → ℚ) (op : ℚ → ℚ → ℚ) :
    List.zipWith op ((List.range S).map f) ((List.range S).map g) = (List.range S).map (fun s => op (f s) (g s)) := by
  rw [List.zipWith_map]
  apply List.ext_getElem?
  intro i
  simp

theorem drop_prefix (p x : String) (k : ℕ) (hk : p.toList.length = k) : String.ofList ((p ++ x).toList.drop k) = x := by
  rw [String.toList_append, List.drop_left' hk]
  exact String.ofList_toList

theorem take_prefix (p x : String) (k : ℕ) (hk : p.toList.length = k) : (p ++ x).toList.take k = p.toList := by
  rw [String.toList_append, List.take_left' hk]

theorem colVar_prefix (vars : String → Option (List (List ℚ))) (p X : String) (k : ℕ) (hk : p.toList.length = k) :
    colVar vars (p ++ X) k = match vars X with | some a => .ok a | none => .error .keyError := by
  unfold colVar; rw [drop_prefix p X k hk]
  cases vars X <;> rfl

/-- `color_by="mean_X"`: the colour of a turbine is the sum over the states of its value times its weight. -/
theorem C76_color_mean (vars : String → Option (List (List ℚ))) (S n : ℕ) (f w : ℕ → ℕ → ℚ) (X : String) (hX : vars X = some (table S n f)) :
    colorBy vars (table S n w) n ("mean_" ++ X) = .ok ((List.range n).map (fun t => ((List.range S).map (fun s => f s t * w s t)).sum)) := by
  unfold colorBy
  rw [take_prefix "mean_" X 5 (by decide +kernel), if_pos rfl, colVar_prefix vars "mean_" X 5 (by decide +kernel), hX]
  simp only [Except.map]
  congr 1
  apply List.map_congr_left
  intro t ht
  rw [column_table _ _ _ _ (List.mem_range.mp ht), column_table _ _ _ _ (List.mem_range.mp ht), zipWith_range]

theorem take4 (X : String) (p : String) (hp : p.toList.length = 4) (hne : p.toList ≠ "mean".toList) : (p ++ X).toList.take 5 ≠ "mean_".toList := by
  intro h
  apply hne
  have h4 : ((p ++ X).toList.take 5).take 4 = "mean_".toList.take 4 := by rw [h]
  rw [List.take_take] at h4
  have : min 4 5 = 4 := rfl
  rw [this, take_prefix p X 4 hp] at h4
  rw [h4]; decide +kernel

/-- `color_by="sum_X"`: the sum over the states. -/
theorem C76_color_sum (vars : String → Option (List (List ℚ))) (weight : List (List ℚ)) (S n : ℕ) (f : ℕ → ℕ → ℚ) (X : String) (hX : vars X = some (table S n f)) :
    colorBy vars weight n ("sum_" ++ X) = .ok ((List.range n).map (fun t => ((List.range S).map (fun s => f s t)).sum)) := by
  unfold colorBy
  rw [if_neg (take4 X "sum_" (by decide +kernel) (by decide +kernel)), take_prefix "sum_" X 4 (by decide +kernel), if_pos rfl,
    colVar_prefix vars "sum_" X 4 (by decide +kernel), hX]
  simp only [Except.map]
  congr 1
  apply List.map_congr_left
  intro t ht
  rw [column_table _ _ _ _ (List.mem_range.mp ht)]

theorem table_ne (S n : ℕ) (f : ℕ → ℕ → ℚ) (hS : 0 < S) : table S n f ≠ [] := by
  intro h
  have := congrArg List.length h
  simp [table] at this
  omega

theorem min_spec (l : List ℚ) (hl : l ≠ []) : (l.min?).getD 0 ∈ l ∧ ∀ x ∈ l, (l.min?).getD 0 ≤ x := by
  cases h : l.min? with
  | none => rw [List.min?_eq_none_iff] at h; exact absurd h hl
  | some m => rw [List.min?_eq_some_iff] at h; exact h

theorem max_spec (l : List ℚ) (hl : l ≠ []) : (l.max?).getD 0 ∈ l ∧ ∀ x ∈ l, x ≤ (l.max?).getD 0 := by
  cases h : l.max? with
  | none => rw [List.max?_eq_none_iff] at h; exact absurd h hl
  | some m => rw [List.max?_eq_some_iff] at h; exact h

/-- `color_by="min_X"`: the smallest value over the states. -/
theorem C76_color_min (vars : String → Option (List (List ℚ))) (weight : List (List ℚ)) (S n : ℕ) (f : ℕ → ℕ → ℚ) (X : String) (hX : vars X = some (table S n f))
    (hS : 0 < S) : ∃ l, colorBy vars weight n ("min_" ++ X) = .ok l ∧ l.length = n ∧
      ∀ (t : ℕ) (c : ℚ), l[t]? = some c → (∃ s < S, c = f s t) ∧ ∀ s < S, c ≤ f s t := by
  refine ⟨(List.range n).map (fun t => ((column t (table S n f)).min?).getD 0), ?_, by simp, ?_⟩
  · unfold colorBy
    rw [if_neg (take4 X "min_" (by decide +kernel) (by decide +kernel)), take_prefix "min_" X 4 (by decide +kernel), if_neg (by decide +kernel),
      if_pos rfl, colVar_prefix vars "min_" X 4 (by decide +kernel), hX]
    simp only [Except.bind]
    rw [if_neg (table_ne S n f hS)]
  · intro t c h
    rw [List.getElem?_map] at h
    have ht : t < n := by
      by_contra hc
      rw [List.getElem?_eq_none (by simpa using hc)] at h
      cases h
    rw [List.getElem?_range ht] at h
    simp only [Option.map_some, Option.some.injEq] at h
    rw [column_table S n f t ht] at h
    obtain ⟨h1, h2⟩ := min_spec ((List.range S).map (fun s => f s t)) (by
      intro e; have := congrArg List.length e; simp at this; omega)
    rw [h] at h1 h2
    obtain ⟨s, hs, rfl⟩ := List.mem_map.mp h1
    exact ⟨⟨s, List.mem_range.mp hs, rfl⟩, fun s' hs' => h2 _ (List.mem_map.mpr ⟨s', List.mem_range.mpr hs', rfl⟩)⟩

/-- `color_by="max_X"`: the largest value over the states. -/
theorem C76_color_max (vars : String → Option (List (List ℚ))) (weight : List (List ℚ)) (S n : ℕ) (f : ℕ → ℕ → ℚ) (X : String) (hX : vars X = some (table S n f))
    (hS : 0 < S) : ∃ l, colorBy vars weight n ("max_" ++ X) = .ok l ∧ l.length = n ∧
      ∀ (t : ℕ) (c : ℚ), l[t]? = some c → (∃ s < S, c = f s t) ∧ ∀ s < S, f s t ≤ c := by
  refine ⟨(List.range n).map (fun t => ((column t (table S n f)).max?).getD 0), ?_, by simp, ?_⟩
  · unfold colorBy
    rw [if_neg (take4 X "max_" (by decide +kernel) (by decide +kernel)), take_prefix "max_" X 4 (by decide +kernel), if_neg (by decide +kernel),
      if_neg (by decide +kernel), if_pos rfl, colVar_prefix vars "max_" X 4 (by decide +kernel), hX]
    simp only [Except.bind]
    rw [if_neg (table_ne S n f hS)]
  · intro t c h
    rw [List.getElem?_map] at h
    have ht : t < n := by
      by_contra hc
      rw [List.getElem?_eq_none (by simpa using hc)] at h
      cases h
    rw [List.getElem?_range ht] at h
    simp only [Option.map_some, Option.some.injEq] at h
    rw [column_table S n f t ht] at h
    obtain ⟨h1, h2⟩ := max_spec ((List.range S).map (fun s => f s t)) (by
      intro e; have := congrArg List.length e; simp at this; omega)
    rw [h] at h1 h2
    obtain ⟨s, hs, rfl⟩ := List.mem_map.mp h1
    exact ⟨⟨s, List.mem_range.mp hs, rfl⟩, fun s' hs' => h2 _ (List.mem_map.mpr ⟨s', List.mem_range.mpr hs', rfl⟩)⟩

example : colorBy (fun v => if v = "P" then some [[1, 2], [5, 4]] else none) [[1/4, 1/4], [3/4, 3/4]] 2 "mean_P" = .ok [4, 7/2] := by decide +kernel
example : colorBy (fun v => if v = "P" then some [[1, 2], [5, 4]] else none) [] 2 "max_P" = .ok [5, 4] := by decide +kernel
example : colorBy (fun _ => some [[1]]) [] 2 "P" = .error .keyError := by decide +kernel

/-! ### The state-turbine map -/

/-- The map needs two states; then cell `s` begins at the label of state `s`, ends at that of the next one, and the last cell has the width of
the one before. -/
theorem C76_map (l : List ℚ) (a b : ℚ) : mapEdges (l ++ [a, b]) = .ok (l ++ [a, b] ++ [b + (b - a)]) := by
  simp [mapEdges]

theorem C76_map_uniform (n : ℕ) (x0 h : ℚ) : mapEdges ((List.range (n + 2)).map (fun i : ℕ => x0 + i * h)) = .ok ((List.range (n + 3)).map (fun i : ℕ => x0 + i * h)) := by
  have e : (List.range (n + 2)).map (fun i : ℕ => x0 + i * h) = (List.range n).map (fun i : ℕ => x0 + i * h) ++ [x0 + n * h, x0 + (n + 1 : ℕ) * h] := by
    rw [List.range_succ, List.range_succ]; simp
  rw [e, C76_map, ← e, List.range_succ (n := n + 2), List.map_append]
  congr 2
  simp only [List.map_cons, List.map_nil]
  push_cast
  congr 1
  ring

/-- False of the code: results of a single state can be shown as a map. -/
theorem C76_map_single (a : ℚ) : mapEdges [a] = .error .indexError ∧ mapEdges [] = .error .indexError := ⟨rfl, rfl⟩

/-! ### Datasets in files -/

/-- `a` and `b` have the same shape and their entries differ by at most `ε` -/
def Near (ε : ℚ) : Arr → Arr → Prop
  | .one a, .one b => List.Forall₂ (fun x y => |x - y| ≤ ε) a b
  | .two a, .two b => List.Forall₂ (List.Forall₂ (fun x y => |x - y| ≤ ε)) a b
  | _, _ => False

theorem forall₂_map_left' {α β : Type} (R : β → α → Prop) (f : α → β) (l : List α) (h : ∀ a ∈ l, R (f a) a) : List.Forall₂ R (l.map f) l := by
  induction l with
  | nil => exact .nil
  | cons a l ih => exact .cons (h a List.mem_cons_self) (ih (fun b hb => h b (List.mem_cons_of_mem _ hb)))

theorem round_near (d : ℕ) (a : Arr) : Near (1 / 2 / 10 ^ d) (a.round d) a := by
  cases a with
  | one l => exact forall₂_map_left' _ _ l (fun x _ => rnd_near d x)
  | two l => exact forall₂_map_left' _ _ l (fun r _ => forall₂_map_left' _ _ r (fun x _ => rnd_near d x))

/-- The file of `write_nc` has the same variables with the same dimensions; variables with a number of digits (the user's, or the default
for the variable and its ambient counterpart) are rounded to it, the others are unchanged. It is written exactly if no dimension has digits. -/
theorem C76_nc_file (r : String → Option (Option ℕ)) (ds : DS) :
    ((∃ f, writeNc (some r) ds = .ok f) ↔ ∀ p ∈ ds.coords, isIndex p = true → digits r p.1 = none) ∧
    ∀ f, writeNc (some r) ds = .ok f → List.Forall₂ (fun a b : String × Var => a.1 = b.1 ∧ a.2.dims = b.2.dims ∧
      (∀ d, digits r b.1 = some d → Near (1 / 2 / 10 ^ d) a.2.data b.2.data) ∧ (digits r b.1 = none → a = b)) f.data ds.data ∧
      f.coords.map Prod.fst = ds.coords.map Prod.fst := by
  constructor
  · unfold writeNc
    simp only
    split_ifs with h
    · constructor
      · rintro ⟨f, hf⟩; cases hf
      · intro h2
        exfalso
        rw [List.any_eq_true] at h
        obtain ⟨p, hp, he⟩ := h
        rw [Bool.and_eq_true] at he
        rw [h2 p hp he.1] at he
        simp at he
    · refine ⟨fun _ p hp hi => ?_, fun _ => ⟨_, rfl⟩⟩
      by_contra hc
      apply h
      rw [List.any_eq_true]
      refine ⟨p, hp, ?_⟩
      rw [hi, Bool.true_and, Option.isSome_iff_ne_none]
      exact hc
  · intro f hf
    unfold writeNc at hf
    simp only at hf
    split_ifs at hf
    cases hf
    constructor
    · apply forall₂_map_left'
      intro p _
      unfold roundVar
      cases hd : digits r p.1 with
      | none => exact ⟨rfl, rfl, by simp, fun _ => rfl⟩
      | some d =>
        refine ⟨rfl, rfl, ?_, by simp⟩
        intro d' h'
        cases h'
        exact round_near d p.2.data
    · simp only [List.map_map]
      apply List.map_congr_left
      intro p _
      simp only [Function.comp, roundVar]
      cases digits r p.1 <;> rfl

/-- With `round=None` nothing is rounded. -/
theorem C76_nc_exact (ds : DS) : writeNc none ds = .ok ds := rfl

/-- Digits of a variable: the user's count, even `None`; else the default ones. -/
theorem C76_nc_digits (r : String → Option (Option ℕ)) (v : String) : digits r v = match r v with | some o => o | none => defaultDigits v := by
  unfold digits; cases r v <;> rfl

/-- All default digits: an ambient variable has as many as the variable, rotor effective wind speeds as many as the wind speed. -/
theorem C76_nc_default : (∀ v ∈ ["WD", "P", "T", "YLD"], defaultDigits v = some 3 ∧ defaultDigits ("AMB_" ++ v) = some 3) ∧
    (∀ v ∈ ["WS", "REWS", "REWS2", "REWS3"], defaultDigits v = some 4 ∧ defaultDigits ("AMB_" ++ v) = some 4) ∧
    (∀ v ∈ ["RHO", "CAP"], defaultDigits v = some 5 ∧ defaultDigits ("AMB_" ++ v) = some 5) ∧ defaultDigits "EFF" = some 5 ∧
    (∀ v ∈ ["TI", "CT"], defaultDigits v = some 6 ∧ defaultDigits ("AMB_" ++ v) = some 6) := by decide +kernel

/-- False of the code: the returned table is the same whether a file is written or not. With a file, the returned values are the rounded ones;
they are the ones of the file. -/
theorem C76_table_changed (ren : String → String) (states turbines : List ℚ) (res : List (String × List (List ℚ))) (r : Option (String → Option (Option ℕ)))
    (d f : DS) (h : tableOut ren states turbines res (some r) = .ok (d, some f)) :
    d = f ∧ ∃ d0, tableOut ren states turbines res none = .ok (d0, none) ∧ writeNc r d0 = .ok d := by
  unfold tableOut at h ⊢
  cases hd : dataset [(ren "state", ⟨[ren "state"], .one states⟩), (ren "turbine", ⟨[ren "turbine"], .one turbines⟩)]
    (res.map (fun p => ⟨ren p.1, some [ren "state", ren "turbine"], .two p.2⟩)) with
  | error e => rw [hd] at h; cases h
  | ok ds =>
    rw [hd] at h
    simp only [Except.bind] at h ⊢
    cases hw : writeNc r ds with
    | error e => rw [hw] at h; cases h
    | ok g =>
      rw [hw] at h
      simp only [Except.map] at h
      cases h
      exact ⟨rfl, ds, rfl, hw⟩

example : tableOut id [0] [0] [("WS", [[123456 / 10000 + 1 / 100000]])] none = .ok (⟨[("state", ⟨["state"], .one [0]⟩), ("turbine", ⟨["turbine"], .one [0]⟩)],
      [("WS", ⟨["state", "turbine"], .two [[1234561 / 100000]]⟩)]⟩, none) ∧
    (tableOut id [0] [0] [("WS", [[123456 / 10000 + 1 / 100000]])] (some (some (fun _ => none)))).map (fun p => p.1.data) =
      .ok [("WS", ⟨["state", "turbine"], .two [[123456 / 10000]]⟩)] := by decide +kernel

/-- The table without file: all variables by state and turbine, unchanged. -/
theorem C76_table_plain (states turbines : List ℚ) (res : List (String × List (List ℚ))) :
    tableOut id states turbines res none = .ok (⟨[("state", ⟨["state"], .one states⟩), ("turbine", ⟨["turbine"], .one turbines⟩)],
      res.map (fun p => (p.1, ⟨["state", "turbine"], .two p.2⟩))⟩, none) := by
  have hv : ∀ l : List (String × List (List ℚ)), vars (l.map (fun p => (⟨id p.1, some [id "state", id "turbine"], .two p.2⟩ : Entry))) =
      .ok (l.map (fun p => (p.1, (⟨["state", "turbine"], .two p.2⟩ : Var)))) := by
    intro l
    induction l with
    | nil => rfl
    | cons p l ih => simp only [List.map_cons, vars, Entry.var]; rw [ih]; rfl
  have hf : ∀ p ∈ res.map (fun p => (p.1, (⟨["state", "turbine"], .two p.2⟩ : Var))), isIndex p = false := by
    intro p hp
    obtain ⟨q, _, rfl⟩ := List.mem_map.mp hp
    simp [isIndex]
  unfold tableOut dataset
  rw [hv res]
  simp only [Except.map, Except.bind, id_eq]
  rw [List.filter_eq_nil_iff.mpr (by intro p hp; rw [hf p hp]; simp), List.filter_eq_self.mpr (by intro p hp; rw [hf p hp]; rfl)]
  rfl

/-! ### Results at points -/

/-- Points for all states are the same as points given for each state. -/
theorem C76_points_fixed (A : Algo) (weight : List (List ℚ)) (labels : List ℚ) (sel : List ℕ) (p : List P3) (mean : Option ℕ) (hS : 0 < A.nStates) :
    (pointCalc A weight labels sel (.fixed p) mean none).map Prod.fst = (pointCalc A weight labels sel (.perState (List.replicate A.nStates p)) mean none).map Prod.fst := by
  have hn : Pts.n (.perState (List.replicate A.nStates p)) = Pts.n (.fixed p) := by
    obtain ⟨m, hm⟩ : ∃ m, A.nStates = m + 1 := ⟨A.nStates - 1, by omega⟩
    simp [Pts.n, hm, List.replicate_succ]
  simp only [pointCalc, expand, hn]

/-- The results are those of the algorithm, by state and point, for all states. -/
theorem C76_points_values (A : Algo) (weight : List (List ℚ)) (labels : List ℚ) (p : List P3) :
    pointCalc A weight labels (List.range A.nStates) (.fixed p) none none =
      .ok (⟨[("state", ⟨["state"], .one labels⟩)], (A.run (List.range A.nStates) (List.replicate A.nStates p)).map (fun v => (v.1, ⟨["state", "point"], .two v.2⟩))⟩, none) := by
  simp [pointCalc, expand, Algo.calcPoints, meanOf, resultDS, Except.bind]

/-- False of the code: points for all states can be used with a subset of the states, as in `calc_points` of the algorithm. ValueError for every
selection of another size. -/
theorem C76_points_subset (A : Algo) (weight : List (List ℚ)) (labels : List ℚ) (sel : List ℕ) (p : List P3) (mean : Option ℕ) (toFile : Option (Option (List String)))
    (hs : sel.length ≠ A.nStates) :
    pointCalc A weight labels sel (.fixed p) mean toFile = .error .valueError ∧ A.calcPoints sel (.fixed p) = .ok (A.run sel (List.replicate sel.length p)) := by
  refine ⟨?_, rfl⟩
  simp only [pointCalc, expand, Algo.calcPoints, List.length_replicate]
  rw [if_neg (fun h => hs h.symm)]; rfl

theorem lookup_map_pair {β γ : Type} (l : List (String × β)) (f : β → γ) (v : String) :
    (l.map (fun p => (p.1, f p.2))).lookup v = (l.lookup v).map f := by
  induction l with
  | nil => rfl
  | cons p l ih =>
    rw [List.map_cons, List.lookup_cons, List.lookup_cons]
    cases hk : v == p.1
    · simp only [ih]
    · rfl

theorem vars_some (l : List Entry) (f : Entry → List String) (h : ∀ e ∈ l, e.dims = some (f e)) :
    vars l = .ok (l.map (fun e => (e.name, ⟨f e, e.arr⟩))) := by
  induction l with
  | nil => rfl
  | cons e l ih =>
    have he := h e List.mem_cons_self
    have hev : e.var = .ok ⟨f e, e.arr⟩ := by unfold Entry.var; rw [he]
    unfold vars
    rw [hev, ih (fun x hx => h x (List.mem_cons_of_mem _ hx))]; rfl

/-- The file of all results, without mean: the states, the coordinates of the points and all variables, as they are. No variable is called state
or point. -/
theorem C76_points_file (A : Algo) (weight : List (List ℚ)) (labels : List ℚ) (p : List P3)
    (hd : ((A.run (List.range A.nStates) (List.replicate A.nStates p)).map Prod.fst).Nodup)
    (hst : "state" ∉ (A.run (List.range A.nStates) (List.replicate A.nStates p)).map Prod.fst) :
    ∃ d, pointCalc A weight labels (List.range A.nStates) (.fixed p) none (some none) = .ok (d, some ⟨[("state", ⟨["state"], .one labels⟩)],
      [("x", ⟨["point"], .one (p.map (fun q => q.1))⟩), ("y", ⟨["point"], .one (p.map (fun q => q.2.1))⟩), ("z", ⟨["point"], .one (p.map (fun q => q.2.2))⟩)] ++
        (A.run (List.range A.nStates) (List.replicate A.nStates p)).map (fun v => (v.1, ⟨["state", "point"], .two v.2⟩))⟩) := by
  set res := A.run (List.range A.nStates) (List.replicate A.nStates p) with hres
  set pres : DS := ⟨[("state", ⟨["state"], .one labels⟩)], res.map (fun v => (v.1, ⟨["state", "point"], .two v.2⟩))⟩ with hpres
  have hget : ∀ v ∈ res, pres.get v.1 = .ok ⟨["state", "point"], .two v.2⟩ := by
    intro v hv
    have hne : v.1 ≠ "state" := fun e => hst (e ▸ List.mem_map.mpr ⟨v, hv, rfl⟩)
    unfold DS.get
    have hl : (pres.coords ++ pres.data).lookup v.1 = some ⟨["state", "point"], .two v.2⟩ := by
      have hb : (v.1 == "state") = false := by simpa using hne
      simp only [hpres, List.cons_append, List.nil_append, List.lookup_cons, hb]
      rw [lookup_map_pair res (fun a => (⟨["state", "point"], .two a⟩ : Var))]
      have : res.lookup v.1 = some v.2 := by
        clear hne hb
        clear_value res
        clear hres hst hpres pres
        induction res with
        | nil => cases hv
        | cons q l ih =>
          simp only [List.map_cons, List.nodup_cons] at hd
          rw [List.lookup_cons]
          rcases List.mem_cons.mp hv with rfl | hv
          · simp
          · have : v.1 ≠ q.1 := fun e => hd.1 (e ▸ List.mem_map.mpr ⟨v, hv, rfl⟩)
            have hb : (v.1 == q.1) = false := by simpa using this
            rw [hb]; exact ih hd.2 hv
      rw [this]; rfl
    rw [hl]
  have hfv : ∀ l : List (String × List (List ℚ)), (∀ v ∈ l, v ∈ res) →
      fileVars ["state", "point"] pres (l.map Prod.fst) = .ok (l.map (fun v => (⟨v.1, some ["state", "point"], .two v.2⟩ : Entry))) := by
    intro l hl
    induction l with
    | nil => rfl
    | cons v l ih =>
      simp only [List.map_cons]
      unfold fileVars
      rw [hget v (hl v List.mem_cons_self)]
      simp only
      rw [ih (fun w hw => hl w (List.mem_cons_of_mem _ hw))]; rfl
  refine ⟨pres, ?_⟩
  have h1 : fileDS labels none (.fixed p) none pres = .ok ⟨[("state", ⟨["state"], .one labels⟩)],
      [("x", ⟨["point"], .one (p.map (fun q => q.1))⟩), ("y", ⟨["point"], .one (p.map (fun q => q.2.1))⟩), ("z", ⟨["point"], .one (p.map (fun q => q.2.2))⟩)] ++
        res.map (fun v => (v.1, ⟨["state", "point"], .two v.2⟩))⟩ := by
    unfold fileDS
    have hnames : (none : Option (List String)).getD (pres.data.map Prod.fst) = res.map Prod.fst := by
      simp [hpres, List.map_map, Function.comp_def]
    rw [hnames]
    simp only [Option.isSome_none, Bool.false_eq_true, if_false]
    rw [hfv res (fun _ h => h)]
    simp only [Except.bind, dataset]
    rw [vars_some _ (fun e => e.dims.getD []) (by
      intro e he
      rcases List.mem_append.mp he with he | he
      · simp only [fileXyz, List.mem_cons, List.not_mem_nil, or_false] at he
        rcases he with rfl | rfl | rfl <;> rfl
      · obtain ⟨v, _, rfl⟩ := List.mem_map.mp he; rfl)]
    simp only [Except.map]
    have hno : ∀ q ∈ (fileXyz (Pts.n (.fixed p)) none (.fixed p) ++ res.map (fun v => (⟨v.1, some ["state", "point"], .two v.2⟩ : Entry))).map
        (fun e => (e.name, (⟨e.dims.getD [], e.arr⟩ : Var))), isIndex q = false := by
      intro q hq
      obtain ⟨e, he, rfl⟩ := List.mem_map.mp hq
      rcases List.mem_append.mp he with he | he
      · simp only [fileXyz, List.mem_cons, List.not_mem_nil, or_false] at he
        rcases he with rfl | rfl | rfl <;> rfl
      · obtain ⟨v, _, rfl⟩ := List.mem_map.mp he
        simp [isIndex]
    rw [List.filter_eq_nil_iff.mpr (by intro q hq; rw [hno q hq]; simp), List.filter_eq_self.mpr (by intro q hq; rw [hno q hq]; rfl)]
    simp [fileXyz, List.map_map, Function.comp_def]
  simp only [pointCalc, expand, Algo.calcPoints, List.length_replicate, List.length_range, if_true, Except.bind, meanOf, resultDS]
  rw [← hres, ← hpres, h1]; rfl

theorem sum_zipWith (S : ℕ) (w : ℕ → ℚ) (rows : ℕ → List ℚ) (p : ℕ) :
    (List.zipWith (fun w r => w * r.getD p 0) ((List.range S).map w) ((List.range S).map rows)).sum = ((List.range S).map (fun s => w s * (rows s).getD p 0)).sum := by
  rw [List.zipWith_map]
  congr 1
  apply List.ext_getElem?
  intro i
  simp

/-- The weighted sum over states: entry `p` is the sum of weight times value at `p`. -/
theorem C76_wsum (S n : ℕ) (w : ℕ → ℚ) (f : ℕ → ℕ → ℚ) :
    wsum ((List.range S).map w) (table S n f) n = (List.range n).map (fun p => ((List.range S).map (fun s => w s * f s p)).sum) := by
  unfold wsum table
  apply List.map_congr_left
  intro p hp
  rw [sum_zipWith]
  congr 1
  apply List.map_congr_left
  intro s _
  simp [List.getD, List.mem_range.mp hp]

/-- It is a mean exactly if the weights of the turbine sum to one: then, and only then, the mean of a constant is the constant. -/
theorem C76_mean_const (S n : ℕ) (w : ℕ → ℚ) (c : ℚ) (hc : c ≠ 0) (hn : 0 < n) :
    wsum ((List.range S).map w) (table S n (fun _ _ => c)) n = List.replicate n c ↔ ((List.range S).map w).sum = 1 := by
  rw [C76_wsum]
  have hs : ((List.range S).map (fun s => w s * c)).sum = ((List.range S).map w).sum * c := by
    induction List.range S with
    | nil => simp
    | cons a l ih => simp only [List.map_cons, List.sum_cons, ih]; ring
  simp only [hs]
  constructor
  · intro h
    have := congrArg (fun l : List ℚ => l[0]?) h
    simp only [List.getElem?_map, List.getElem?_range hn, Option.map_some, List.getElem?_replicate, if_pos hn, Option.some.injEq] at this
    have h0 : (((List.range S).map w).sum - 1) * c = 0 := by linarith
    rcases mul_eq_zero.mp h0 with h | h
    · linarith
    · exact absurd h hc
  · intro h
    rw [h, one_mul, List.map_const', List.length_range]

theorem vars_none (l : List (String × List ℚ)) : vars (l.map (fun p => (⟨p.1, none, .one p.2⟩ : Entry))) = .ok (l.map (fun p => (p.1, ⟨[p.1], .one p.2⟩))) := by
  induction l with
  | nil => rfl
  | cons p l ih => simp only [List.map_cons, vars, Entry.var]; rw [ih]; rfl

/-- the dataset of the means -/
theorem resultDS_mean (labels : List ℚ) (n : ℕ) (w : List ℚ) (res : List (String × List (List ℚ))) (hl : ∀ v ∈ res, v.2.length = w.length) :
    resultDS labels n (some w) res = .ok ⟨res.map (fun v => (v.1, ⟨[v.1], .one (wsum w v.2 n)⟩)), []⟩ := by
  have hall : res.all (fun p => p.2.length = w.length) = true := by
    rw [List.all_eq_true]; intro v hv; simpa using hl v hv
  have hv := vars_none (res.map (fun v => (v.1, wsum w v.2 n)))
  simp only [List.map_map, Function.comp_def] at hv
  simp only [resultDS]
  rw [if_pos hall]
  unfold dataset
  rw [hv]
  simp only [Except.map, List.nil_append]
  have hi : ∀ q ∈ res.map (fun v => (v.1, (⟨[v.1], .one (wsum w v.2 n)⟩ : Var))), isIndex q = true := by
    intro q hq
    obtain ⟨v, _, rfl⟩ := List.mem_map.mp hq
    simp [isIndex]
  rw [List.filter_eq_self.mpr hi, List.filter_eq_nil_iff.mpr (by intro q hq; rw [hi q hq]; simp)]

theorem pointCalc_mean (A : Algo) (weight : List (List ℚ)) (labels : List ℚ) (p : List P3) (wt : ℕ) (toFile : Option (Option (List String)))
    (hw : ∀ r ∈ weight, wt < r.length) (hl : ∀ v ∈ A.run (List.range A.nStates) (List.replicate A.nStates p), v.2.length = weight.length) :
    pointCalc A weight labels (List.range A.nStates) (.fixed p) (some wt) toFile =
      match toFile with
      | none => .ok (⟨(A.run (List.range A.nStates) (List.replicate A.nStates p)).map (fun v => (v.1, ⟨[v.1], .one (wsum (column wt weight) v.2 p.length)⟩)), []⟩, none)
      | some wv => (fileDS labels (some (column wt weight)) (.fixed p) wv
          ⟨(A.run (List.range A.nStates) (List.replicate A.nStates p)).map (fun v => (v.1, ⟨[v.1], .one (wsum (column wt weight) v.2 p.length)⟩)), []⟩).map
          (fun f => (⟨(A.run (List.range A.nStates) (List.replicate A.nStates p)).map (fun v => (v.1, ⟨[v.1], .one (wsum (column wt weight) v.2 p.length)⟩)), []⟩, some f)) := by
  have hall : weight.all (fun r => wt < r.length) = true := by
    rw [List.all_eq_true]; intro r hr; simpa using hw r hr
  have hr := resultDS_mean labels (Pts.n (.fixed p)) (column wt weight) (A.run (List.range A.nStates) (List.replicate A.nStates p))
    (by intro v hv; rw [hl v hv]; simp [column])
  simp only [pointCalc, expand, Algo.calcPoints, List.length_replicate, List.length_range, if_true, Except.bind, meanOf, weightsOf, hall, Except.map]
  rw [hr]
  simp only [Pts.n]
  cases toFile <;> rfl

/-- Means over states: each variable has the weighted sums, weights of the chosen turbine. But the result has no data variables (they are
coordinates of dimensions of their own names). -/
theorem C76_mean_result (A : Algo) (weight : List (List ℚ)) (labels : List ℚ) (p : List P3) (wt : ℕ)
    (hw : ∀ r ∈ weight, wt < r.length) (hl : ∀ v ∈ A.run (List.range A.nStates) (List.replicate A.nStates p), v.2.length = weight.length) :
    ∃ d, pointCalc A weight labels (List.range A.nStates) (.fixed p) (some wt) none = .ok (d, none) ∧ d.data = [] ∧
      d.coords = (A.run (List.range A.nStates) (List.replicate A.nStates p)).map (fun v => (v.1, ⟨[v.1], .one (wsum (column wt weight) v.2 p.length)⟩)) :=
  ⟨_, pointCalc_mean A weight labels p wt none hw hl, rfl, rfl⟩

/-- False of the code: with `states_mean=True` all results are written if no variables are chosen. The file has no result at all, only the
coordinates of the points. -/
theorem C76_mean_file_empty (A : Algo) (weight : List (List ℚ)) (labels : List ℚ) (p : List P3) (wt : ℕ)
    (hw : ∀ r ∈ weight, wt < r.length) (hl : ∀ v ∈ A.run (List.range A.nStates) (List.replicate A.nStates p), v.2.length = weight.length) :
    ∃ d, pointCalc A weight labels (List.range A.nStates) (.fixed p) (some wt) (some none) = .ok (d, some ⟨[],
      [("x", ⟨["point"], .one (p.map (fun q => q.1))⟩), ("y", ⟨["point"], .one (p.map (fun q => q.2.1))⟩), ("z", ⟨["point"], .one (p.map (fun q => q.2.2))⟩)]⟩) := by
  refine ⟨⟨(A.run (List.range A.nStates) (List.replicate A.nStates p)).map (fun v => (v.1, ⟨[v.1], .one (wsum (column wt weight) v.2 p.length)⟩)), []⟩, ?_⟩
  rw [pointCalc_mean A weight labels p wt (some none) hw hl]
  rfl

/-- A chosen variable is written with its means. -/
theorem C76_mean_file_chosen (A : Algo) (weight : List (List ℚ)) (labels : List ℚ) (p : List P3) (wt : ℕ) (v : String) (a : List (List ℚ)) (hv : v ≠ "point")
    (hw : ∀ r ∈ weight, wt < r.length) (hl : ∀ v ∈ A.run (List.range A.nStates) (List.replicate A.nStates p), v.2.length = weight.length)
    (ha : (A.run (List.range A.nStates) (List.replicate A.nStates p)).lookup v = some a) :
    ∃ d, pointCalc A weight labels (List.range A.nStates) (.fixed p) (some wt) (some (some [v])) = .ok (d, some ⟨[],
      [("x", ⟨["point"], .one (p.map (fun q => q.1))⟩), ("y", ⟨["point"], .one (p.map (fun q => q.2.1))⟩), ("z", ⟨["point"], .one (p.map (fun q => q.2.2))⟩),
       (v, ⟨["point"], .one (wsum (column wt weight) a p.length)⟩)]⟩) := by
  refine ⟨⟨(A.run (List.range A.nStates) (List.replicate A.nStates p)).map (fun v => (v.1, ⟨[v.1], .one (wsum (column wt weight) v.2 p.length)⟩)), []⟩, ?_⟩
  rw [pointCalc_mean A weight labels p wt (some (some [v])) hw hl]
  set res := A.run (List.range A.nStates) (List.replicate A.nStates p)
  have hget : (res.map (fun v => (v.1, (⟨[v.1], .one (wsum (column wt weight) v.2 p.length)⟩ : Var)))).lookup v = some ⟨[v], .one (wsum (column wt weight) a p.length)⟩ := by
    clear_value res
    clear hl
    induction res with
    | nil => cases ha
    | cons q l ih =>
      rw [List.lookup_cons] at ha
      rw [List.map_cons, List.lookup_cons]
      cases hk : v == q.1 with
      | true =>
        rw [hk] at ha
        cases ha
        have : v = q.1 := by simpa using hk
        rw [this]
      | false => rw [hk] at ha; exact ih ha
  have hf : fileVars ["point"] ⟨res.map (fun v => (v.1, (⟨[v.1], .one (wsum (column wt weight) v.2 p.length)⟩ : Var))), []⟩ [v] =
      .ok [⟨v, some ["point"], .one (wsum (column wt weight) a p.length)⟩] := by
    simp only [fileVars, DS.get, List.append_nil]
    rw [hget]; rfl
  have hb : isIndex (v, (⟨["point"], .one (wsum (column wt weight) a p.length)⟩ : Var)) = false := by
    simp only [isIndex]
    have : ¬ (["point"] = [v]) := by
      intro h; simp only [List.cons.injEq, and_true] at h; exact hv h.symm
    simpa using this
  have h1 : isIndex ("x", (⟨["point"], .one (p.map (fun q => q.1))⟩ : Var)) = false := rfl
  have h2 : isIndex ("y", (⟨["point"], .one (p.map (fun q => q.2.1))⟩ : Var)) = false := rfl
  have h3 : isIndex ("z", (⟨["point"], .one (p.map (fun q => q.2.2))⟩ : Var)) = false := rfl
  simp only [fileDS, Option.isSome_some, if_true, Option.getD_some]
  rw [hf]
  simp only [Except.bind, fileXyz, List.cons_append, List.nil_append, dataset, vars, Entry.var, Except.map, List.filter_cons, List.filter_nil, hb, h1, h2, h3]
  rfl

/-- For points that move with the states the file has the weighted sums of their coordinates. -/
theorem C76_mean_points_move (n : ℕ) (w : List ℚ) (q : List (List P3)) :
    fileXyz n (some w) (.perState q) = [⟨"x", some ["point"], .one (wsum w (q.map (List.map (fun p => p.1))) n)⟩,
      ⟨"y", some ["point"], .one (wsum w (q.map (List.map (fun p => p.2.1))) n)⟩, ⟨"z", some ["point"], .one (wsum w (q.map (List.map (fun p => p.2.2))) n)⟩] := rfl

example : (pointCalc ⟨2, fun _ q => [("WS", q.map (List.map (fun p => p.1 + p.2.2)))]⟩ [[1/4, 0], [3/4, 1]] [0, 1] [0, 1] (.fixed [(1, 2, 3), (5, 6, 7)]) (some 0) (some (some ["WS"]))).map
    (fun r => r.2.map DS.data) = .ok (some [("x", ⟨["point"], .one [1, 5]⟩), ("y", ⟨["point"], .one [2, 6]⟩), ("z", ⟨["point"], .one [3, 7]⟩), ("WS", ⟨["point"], .one [4, 12]⟩)]) := by
  decide +kernel

end Foxes.Props.LayoutOut
