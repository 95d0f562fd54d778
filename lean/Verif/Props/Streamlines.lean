import Verif.Model.Streamlines
import Verif.Props.Frames
import Mathlib.Data.Finset.Max
import Mathlib.Tactic.Ring
import Mathlib.Tactic.Linarith
import Mathlib.Tactic.FieldSimp
/-
C61: streamline wake frame.
-/
namespace Foxes.Props.Streamlines
open Foxes.Streamlines Foxes.Frames Foxes.WindDir

noncomputable section
open scoped Classical

/-! ## argmin -/

lemma argmin_num (n : ℕ) (d : ℕ → Option ℝ) (hn : 0 < n) (h : ∀ i < n, d i ≠ none) :
    npArgmin n d < n ∧ ∀ j < n, (d (npArgmin n d)).getD 0 ≤ (d j).getD 0 := by
  have h1 : (List.range n).find? (fun i => decide (d i = none)) = none := by
    rw [List.find?_eq_none]; intro i hi; simpa using h i (List.mem_range.1 hi)
  obtain ⟨m, hm, hmin⟩ := Finset.exists_min_image (Finset.range n) (fun i => (d i).getD 0) ⟨0, Finset.mem_range.2 hn⟩
  have h2 : ((List.range n).find? fun i => decide (∀ j < n, (d i).getD 0 ≤ (d j).getD 0)).isSome := by
    rw [List.find?_isSome]
    exact ⟨m, List.mem_range.2 (Finset.mem_range.1 hm), by simpa using fun j hj => hmin j (Finset.mem_range.2 hj)⟩
  obtain ⟨i, hi⟩ := Option.isSome_iff_exists.1 h2
  have e : npArgmin n d = i := by unfold npArgmin; rw [h1, hi]; rfl
  rw [e]
  exact ⟨List.mem_range.1 (List.mem_of_find?_eq_some hi), by simpa using List.find?_some hi⟩

lemma argmin_nan (n : ℕ) (d : ℕ → Option ℝ) (h : ∃ i < n, d i = none) : npArgmin n d < n ∧ d (npArgmin n d) = none := by
  obtain ⟨m, hm, hd⟩ := h
  have h2 : ((List.range n).find? fun i => decide (d i = none)).isSome := by
    rw [List.find?_isSome]
    exact ⟨m, List.mem_range.2 hm, by simpa using hd⟩
  obtain ⟨i, hi⟩ := Option.isSome_iff_exists.1 h2
  have e : npArgmin n d = i := by unfold npArgmin; rw [hi]
  rw [e]
  exact ⟨List.mem_range.1 (List.mem_of_find?_eq_some hi), by simpa using List.find?_some hi⟩

lemma unit (wd : ℝ) : (wd2uv wd 1).1 ^ 2 + (wd2uv wd 1).2 ^ 2 = 1 := by
  have := (Foxes.Props.WindDir.C31_convention wd 1).2.2.2.2.1
  simpa using this

/-! ## Streamlines -/

lemma rows_some (step : ℝ) (flow : Option (ℝ × ℝ) → ℝ → Option ℝ) (hub : V3) (wd : ℝ) (i : ℕ) :
    ∃ p w, streamline step flow hub (some wd) i = ⟨some p, hub.z, some w⟩ := by
  induction i with
  | zero => exact ⟨_, _, rfl⟩
  | succ i ih =>
    obtain ⟨p, w, e⟩ := ih
    simp only [streamline, e, next, nextXY]
    cases h : flow (some (p.1 + step * (wd2uv w 1).1, p.2 + step * (wd2uv w 1).2)) hub.z with
    | none => exact ⟨_, _, rfl⟩
    | some w' => exact ⟨_, _, rfl⟩

/-- A streamline starts at the rotor centre and follows the wind: from each of its points it goes one step into the direction of the wind at that
point (at the first point: the ambient wind direction of the turbine), at constant height. -/
theorem C61_follows_wind (step : ℝ) (flow : ℝ × ℝ → ℝ → ℝ) (hub : V3) (wd : ℝ) :
    ∃ p : ℕ → ℝ × ℝ, (∀ i, (streamline step (fun q z => q.map fun q => flow q z) hub (some wd) i).xy = some (p i)) ∧
      (∀ i, (streamline step (fun q z => q.map fun q => flow q z) hub (some wd) i).z = hub.z) ∧
      p 0 = (hub.x, hub.y) ∧ p 1 = (hub.x + step * (wd2uv wd 1).1, hub.y + step * (wd2uv wd 1).2) ∧
      ∀ i, p (i + 2) = ((p (i + 1)).1 + step * (wd2uv (flow (p (i + 1)) hub.z) 1).1, (p (i + 1)).2 + step * (wd2uv (flow (p (i + 1)) hub.z) 1).2) := by
  set S := streamline step (fun q z => q.map fun q => flow q z) hub (some wd) with hS
  have hs : ∀ i, ∃ p w, S i = ⟨some p, hub.z, some w⟩ := rows_some step _ hub wd
  choose p w e using hs
  refine ⟨p, fun i => by rw [e i], fun i => by rw [e i], ?_, ?_, ?_⟩
  · have := e 0
    simp only [hS, streamline, start, Row.mk.injEq, Option.some.injEq] at this
    exact this.1.symm
  · have := e 1
    simp only [hS, streamline, start, next, nextXY, Row.mk.injEq, Option.some.injEq] at this
    exact this.1.symm
  · intro i
    have h1 : S (i + 1) = next step (fun q z => q.map fun q => flow q z) (S i) := rfl
    have h2 : S (i + 2) = next step (fun q z => q.map fun q => flow q z) (S (i + 1)) := rfl
    rw [e (i + 1), e i] at h1
    rw [e (i + 2), e (i + 1)] at h2
    simp only [next, nextXY, Option.map_some, Row.mk.injEq, Option.some.injEq, true_and] at h1 h2
    rw [h2.1, h1.2, ← h1.1]

/-- The coordinates of a target are measured from the nearest point of the streamline: x is the length of the streamline up to there plus the offset
along the wind, y the offset across the wind. -/
theorem C61_coordinates (step : ℝ) (n : ℕ) (hn : 0 < n) (flow : Option (ℝ × ℝ) → ℝ → Option ℝ) (hub p : V3) (wd : ℝ) :
    (calcCoos step n (streamline step flow hub (some wd)) p).2 = p.z - hub.z ∧
    ∀ x y, (calcCoos step n (streamline step flow hub (some wd)) p).1 = some (x, y) →
      ∃ i < n, |x - step * i| < step ∧ ∃ q w, (streamline step flow hub (some wd) i).xy = some q ∧ (streamline step flow hub (some wd) i).wd = some w ∧
        p.x = q.1 + (x - step * i) * (wd2uv w 1).1 - y * (wd2uv w 1).2 ∧ p.y = q.2 + (x - step * i) * (wd2uv w 1).2 + y * (wd2uv w 1).1 ∧
        ∀ j < n, ∀ q', (streamline step flow hub (some wd) j).xy = some q' →
          (p.x - q.1) ^ 2 + (p.y - q.2) ^ 2 ≤ (p.x - q'.1) ^ 2 + (p.y - q'.2) ^ 2 := by
  set S := streamline step flow hub (some wd) with hS
  have hs : ∀ i, ∃ p w, S i = ⟨some p, hub.z, some w⟩ := rows_some step flow hub wd
  obtain ⟨hi, hmin⟩ := argmin_num n (fun i => dist2D p (S i)) hn (by
    intro i _; obtain ⟨q, w, e⟩ := hs i; simp [e, dist2D])
  set i := npArgmin n fun i => dist2D p (S i) with hidx
  obtain ⟨q, w, e⟩ := hs i
  constructor
  · unfold calcCoos; simp only [← hidx]; rw [e]
  · intro x y h
    unfold calcCoos at h
    simp only [← hidx, e] at h
    split_ifs at h with hc
    simp only [Option.some.injEq, Prod.mk.injEq] at h
    obtain ⟨hx, hy⟩ := h
    have hu := unit w
    have hx' : x - step * i = (p.x - q.1) * (wd2uv w 1).1 + (p.y - q.2) * (wd2uv w 1).2 := by linarith
    refine ⟨i, hi, ?_, q, w, by rw [e], by rw [e], ?_, ?_, ?_⟩
    · rw [hx', abs_lt]; exact hc
    · rw [hx', ← hy]; linear_combination (p.x - q.1) * (-hu)
    · rw [hx', ← hy]; linear_combination (p.y - q.2) * (-hu)
    · intro j hj q' hq'
      have := hmin j hj
      simp only [dist2D, e, hq', Option.map_some, Option.getD_some] at this
      rw [Real.sqrt_le_sqrt_iff (by positivity)] at this
      exact this

/-! ## Uniform wind -/

lemma uniform_row (step : ℝ) (hub : V3) (wd : ℝ) (i : ℕ) :
    streamline step (fun _ _ => some wd) hub (some wd) i = ⟨some (hub.x + i * step * (wd2uv wd 1).1, hub.y + i * step * (wd2uv wd 1).2), hub.z, some wd⟩ := by
  induction i with
  | zero => simp [streamline, start]
  | succ i ih =>
    simp only [streamline, next, ih, nextXY, Row.mk.injEq, Option.some.injEq, Prod.mk.injEq, and_true]
    push_cast
    constructor <;> ring

/-- In uniform wind the coordinates are those of the standard wake frame, from one step before the rotor to the end of the streamline; outside of that
range they are NaN. -/
theorem C61_uniform (step : ℝ) (hs : 0 < step) (n : ℕ) (hn : 0 < n) (hub p : V3) (wd : ℝ) :
    calcCoos step n (streamline step (fun _ _ => some wd) hub (some wd)) p =
      (if -step < (wakeCoos hub wd p).x ∧ (wakeCoos hub wd p).x < n * step then some ((wakeCoos hub wd p).x, (wakeCoos hub wd p).y) else none,
        (wakeCoos hub wd p).z) := by
  have hu := unit wd
  have wx : (wakeCoos hub wd p).x = (p.x - hub.x) * (wd2uv wd 1).1 + (p.y - hub.y) * (wd2uv wd 1).2 := by
    simp [wakeCoos, V3.sub, V3.dot, axisN]
  have wy : (wakeCoos hub wd p).y = (p.x - hub.x) * -(wd2uv wd 1).2 + (p.y - hub.y) * (wd2uv wd 1).1 := by
    simp [wakeCoos, V3.sub, V3.dot, axisN, axisM]
  have wz : (wakeCoos hub wd p).z = p.z - hub.z := by
    simp [wakeCoos, V3.sub, V3.dot, axisZ]
  set X := (wakeCoos hub wd p).x with hX
  set Y := (wakeCoos hub wd p).y with hY
  obtain ⟨hi, hmin⟩ := argmin_num n (fun i => dist2D p (streamline step (fun _ _ => some wd) hub (some wd) i)) hn (by
    intro i _; simp [uniform_row, dist2D])
  unfold calcCoos
  set i := npArgmin n fun i => dist2D p (streamline step (fun _ _ => some wd) hub (some wd) i) with hidx
  have hd : ∀ j : ℕ, (p.x - (hub.x + j * step * (wd2uv wd 1).1)) ^ 2 + (p.y - (hub.y + j * step * (wd2uv wd 1).2)) ^ 2 = (X - j * step) ^ 2 + Y ^ 2 := by
    intro j
    rw [wx, wy]
    linear_combination (-(p.x - hub.x) ^ 2 - (p.y - hub.y) ^ 2 + (j * step) ^ 2) * hu
  have hsq : ∀ j < n, (X - i * step) ^ 2 ≤ (X - j * step) ^ 2 := by
    intro j hj
    have := hmin j hj
    simp only [uniform_row, dist2D, Option.map_some, Option.getD_some] at this
    rw [Real.sqrt_le_sqrt_iff (by positivity), hd, hd] at this
    linarith
  simp only [uniform_row]
  have e1 : (p.x - (hub.x + i * step * (wd2uv wd 1).1)) * (wd2uv wd 1).1 + (p.y - (hub.y + i * step * (wd2uv wd 1).2)) * (wd2uv wd 1).2 = X - i * step := by
    rw [wx]; linear_combination (-(i : ℝ) * step) * hu
  have e2 : (p.x - (hub.x + i * step * (wd2uv wd 1).1)) * -(wd2uv wd 1).2 + (p.y - (hub.y + i * step * (wd2uv wd 1).2)) * (wd2uv wd 1).1 = Y := by
    rw [wy]; ring
  rw [e1, e2, wz]
  have iff : (-step < X - i * step ∧ X - i * step < step) ↔ (-step < X ∧ X < n * step) := by
    have hi' : (i : ℝ) + 1 ≤ n := by exact_mod_cast hi
    have hi0 : (0 : ℝ) ≤ i := Nat.cast_nonneg i
    constructor
    · rintro ⟨h1, h2⟩
      constructor <;> nlinarith
    · rintro ⟨h1, h2⟩
      constructor
      · by_contra hc
        push Not at hc
        have hipos : 0 < i := by
          rcases Nat.eq_zero_or_pos i with h0 | h0
          · rw [h0] at hc; simp at hc; linarith
          · exact h0
        have := hsq (i - 1) (by omega)
        rw [Nat.cast_sub hipos] at this
        push_cast at this
        nlinarith
      · by_contra hc
        push Not at hc
        by_cases hl : i + 1 < n
        · have := hsq (i + 1) hl
          push_cast at this
          nlinarith
        · have : (n : ℝ) = i + 1 := by
            have : n = i + 1 := by omega
            rw [this]; push_cast; ring
          rw [this] at h2
          linarith
  by_cases h : -step < X ∧ X < n * step
  · rw [if_pos (iff.2 h), if_pos h]
    congr 2
    ext
    · simp; ring
    · rfl
  · rw [if_neg (fun hh => h (iff.1 hh)), if_neg h]

/-- In uniform wind the centreline is that of the standard wake frame up to the last point of the streamline, where it ends. -/
theorem C61_centreline_partial (step : ℝ) (hs : 0 < step) (n : ℕ) (_hn : 2 ≤ n) (hub : V3) (wd x : ℝ) (hx : 0 ≤ x) :
    centrelinePoint step n (streamline step (fun _ _ => some wd) hub (some wd)) x = centreline hub wd (min x (step * (n - 1 : ℕ))) := by
  unfold centrelinePoint
  simp only
  set X := min x (step * (n - 1 : ℕ)) with hX
  have h0 : 0 ≤ X := le_min hx (by positivity)
  rw [if_neg (not_lt.2 h0)]
  simp only [uniform_row, Option.getD_some]
  simp only [V3.smul, V3.add, centreline, axisN, V3.mk.injEq]
  set i := min ⌊X / step⌋₊ (n - 2)
  push_cast
  refine ⟨?_, ?_, ?_⟩
  · field_simp; ring
  · field_simp; ring
  · ring

/-- In any wind the centreline passes through the points of the streamline, at their distance along the streamline, and is straight in between. -/
theorem C61_centreline_points (step : ℝ) (hs : 0 < step) (n : ℕ) (hn : 2 ≤ n) (data : ℕ → Row) (p : ℕ → V3)
    (hp : ∀ i, (data i).xy = some ((p i).x, (p i).y) ∧ (data i).z = (p i).z) (i : ℕ) (hi : i + 1 < n) (t : ℝ) (h0 : 0 ≤ t) (h1 : t ≤ 1) :
    centrelinePoint step n data (step * (i + t)) = (V3.smul (1 - t) (p i)).add (V3.smul t (p (i + 1))) := by
  have hpt : ∀ i, (⟨((data i).xy.getD (0, 0)).1, ((data i).xy.getD (0, 0)).2, (data i).z⟩ : V3) = p i := by
    intro i; rw [(hp i).1, (hp i).2]; rfl
  unfold centrelinePoint
  simp only [hpt]
  have hle : step * (i + t) ≤ step * ((n - 1 : ℕ) : ℝ) := by
    apply mul_le_mul_of_nonneg_left _ hs.le
    have : ((i + 1 : ℕ) : ℝ) ≤ ((n - 1 : ℕ) : ℝ) := by exact_mod_cast (by omega : i + 1 ≤ n - 1)
    push_cast at this ⊢
    linarith
  rw [min_eq_left hle, if_neg (not_lt.2 (by positivity)), mul_div_cancel_left₀ _ hs.ne']
  rcases lt_or_eq_of_le h1 with ht | ht
  · have hf : ⌊(i : ℝ) + t⌋₊ = i := by
      rw [Nat.floor_eq_iff (by positivity)]
      constructor <;> linarith
    rw [hf, Nat.min_eq_left (by omega)]
    congr 2 <;> ring
  · subst ht
    have hf : ⌊(i : ℝ) + 1⌋₊ = i + 1 := by
      rw [show (i : ℝ) + 1 = ((i + 1 : ℕ) : ℝ) by push_cast; ring, Nat.floor_natCast]
    rw [hf]
    by_cases hl : i + 1 = n - 1
    · rw [Nat.min_eq_right (by omega), show n - 2 = i by omega]
      congr 2 <;> ring
    · rw [Nat.min_eq_left (by omega)]
      push_cast
      simp [V3.smul, V3.add]

/-- Centreline points upstream of the rotor are all at the origin of the coordinate system. -/
theorem C61_centreline_upstream (step : ℝ) (n : ℕ) (data : ℕ → Row) (x : ℝ) (hx : x < 0) : centrelinePoint step n data x = ⟨0, 0, 0⟩ := by
  unfold centrelinePoint
  simp only
  rw [if_pos (lt_of_le_of_lt (min_le_left _ _) hx)]

/-! ## The order of the turbines -/

lemma lexLe_total (keys : List (ℕ → Option ℝ)) (i j : ℕ) : lexLe keys i j ∨ lexLe keys j i := by
  induction keys with
  | nil => exact Or.inl trivial
  | cons k ks ih =>
    unfold lexLe
    cases hi : k i <;> cases hj : k j
    · exact ih
    · exact Or.inr trivial
    · exact Or.inl trivial
    · rename_i a b
      rcases lt_trichotomy a b with h | h | h
      · exact Or.inl (Or.inl h)
      · rcases ih with ih | ih
        · exact Or.inl (Or.inr ⟨h, ih⟩)
        · exact Or.inr (Or.inr ⟨h.symm, ih⟩)
      · exact Or.inr (Or.inl h)

lemma lexLe_trans (keys : List (ℕ → Option ℝ)) (i j l : ℕ) (h1 : lexLe keys i j) (h2 : lexLe keys j l) : lexLe keys i l := by
  induction keys with
  | nil => trivial
  | cons k ks ih =>
    unfold lexLe at h1 h2 ⊢
    cases hi : k i <;> cases hj : k j <;> cases hl : k l <;> simp only [hi, hj, hl] at h1 h2 ⊢
    · exact ih h1 h2
    · rename_i a b c
      rcases h1 with h1 | ⟨e1, h1⟩ <;> rcases h2 with h2 | ⟨e2, h2⟩
      · exact Or.inl (h1.trans h2)
      · exact Or.inl (e2 ▸ h1)
      · exact Or.inl (e1 ▸ h2)
      · exact Or.inr ⟨e1.trans e2, ih h1 h2⟩

lemma lexsort_perm (n : ℕ) (keys : List (ℕ → Option ℝ)) : (lexsort n keys).Perm (List.range n) := List.mergeSort_perm _ _

lemma lexsort_pairwise (n : ℕ) (keys : List (ℕ → Option ℝ)) : (lexsort n keys).Pairwise (fun i j => lexLe keys.reverse i j) := by
  have := List.pairwise_mergeSort (le := fun i j => decide (lexLe keys.reverse i j))
    (fun a b c h1 h2 => by simpa using lexLe_trans _ a b c (by simpa using h1) (by simpa using h2))
    (fun a b => by simpa using lexLe_total _ a b) (List.range n)
  simpa [lexsort] using this

/-- The calculation order is a permutation of the turbines. -/
theorem C61_order_perm (step : ℝ) (npts n : ℕ) (lines : Lines) (hubs : ℕ → V3) : (calcOrder step npts n lines hubs).Perm (List.range n) :=
  lexsort_perm n _

/-- Even if the ambient wind direction were available when the order is calculated, it would be wrong: in uniform wind the last turbine of the farm
comes before all turbines that are upstream of it (by at least one step). -/
theorem C61_order_reversed (step : ℝ) (hs : 0 < step) (npts n : ℕ) (hn : 0 < npts) (hubs : ℕ → V3) (wd : ℝ) (j : ℕ) (hj : j < n)
    (hup : (wakeCoos (hubs (n - 1)) wd (hubs j)).x ≤ -step) :
    let order := calcOrder step npts n (fun t => streamline step (fun _ _ => some wd) (hubs t) (some wd)) hubs
    order.idxOf (n - 1) < order.idxOf j := by
  intro order
  have hn0 : 0 < n := by omega
  have hperm : order.Perm (List.range n) := C61_order_perm step npts n _ hubs
  have hmem : ∀ k < n, k ∈ order := fun k hk => hperm.symm.subset (List.mem_range.2 hk)
  have hself : (wakeCoos (hubs (n - 1)) wd (hubs (n - 1))) = ⟨0, 0, 0⟩ := (Foxes.Props.Frames.C32_isometry _ wd (hubs 0) (hubs 0)).2.1
  have hne : j ≠ n - 1 := by
    rintro rfl
    rw [hself] at hup
    simp only at hup
    linarith
  by_contra hc
  push Not at hc
  have hlt : order.idxOf j < order.idxOf (n - 1) := by
    rcases lt_or_eq_of_le hc with h | h
    · exact h
    · exfalso
      apply hne
      have h1 := List.getElem_idxOf (List.idxOf_lt_length_of_mem (hmem j hj))
      have h2 := List.getElem_idxOf (List.idxOf_lt_length_of_mem (hmem (n - 1) (by omega)))
      rw [← h1, ← h2]
      congr 1
  have hp := lexsort_pairwise n ((List.range n).map fun t j => (calcCoos step npts (streamline step (fun _ _ => some wd) (hubs t) (some wd)) (hubs j)).1.map
    fun xy => xy.1)
  have hl := List.pairwise_iff_getElem.1 hp (order.idxOf j) (order.idxOf (n - 1)) (List.idxOf_lt_length_of_mem (hmem j hj))
    (List.idxOf_lt_length_of_mem (hmem (n - 1) (by omega))) hlt
  have h1 : order[order.idxOf j]'(List.idxOf_lt_length_of_mem (hmem j hj)) = j := List.getElem_idxOf _
  have h2 : order[order.idxOf (n - 1)]'(List.idxOf_lt_length_of_mem (hmem (n - 1) (by omega))) = n - 1 := List.getElem_idxOf _
  change lexLe _ (order[order.idxOf j]'_) (order[order.idxOf (n - 1)]'_) at hl
  rw [h1, h2, ← List.map_reverse] at hl
  obtain ⟨m, rfl⟩ : ∃ m, n = m + 1 := ⟨n - 1, by omega⟩
  rw [List.range_succ, List.reverse_append] at hl
  simp only [Nat.add_sub_cancel] at *
  simp only [List.reverse_cons, List.reverse_nil, List.nil_append, List.cons_append, List.map_cons, lexLe, C61_uniform step hs npts hn] at hl
  rw [if_neg (by rintro ⟨h, -⟩; linarith), if_pos (by rw [hself]; exact ⟨by simpa using hs, by simp; positivity⟩)] at hl
  simp at hl

/-- Turbines within the reach of the last turbine's streamline are sorted by their distance along it (uniform wind). -/
theorem C61_order_downstream (step : ℝ) (hs : 0 < step) (npts n : ℕ) (hn : 0 < npts) (hubs : ℕ → V3) (wd : ℝ) (i j : ℕ) (hi : i < n) (hj : j < n)
    (h0 : -step < (wakeCoos (hubs (n - 1)) wd (hubs i)).x)
    (hij : (wakeCoos (hubs (n - 1)) wd (hubs i)).x < (wakeCoos (hubs (n - 1)) wd (hubs j)).x)
    (h1 : (wakeCoos (hubs (n - 1)) wd (hubs j)).x < npts * step) :
    let order := calcOrder step npts n (fun t => streamline step (fun _ _ => some wd) (hubs t) (some wd)) hubs
    order.idxOf i < order.idxOf j := by
  intro order
  have hperm : order.Perm (List.range n) := C61_order_perm step npts n _ hubs
  have hmem : ∀ k < n, k ∈ order := fun k hk => hperm.symm.subset (List.mem_range.2 hk)
  have hne : j ≠ i := by
    rintro rfl
    exact lt_irrefl _ hij
  by_contra hc
  push Not at hc
  have hlt : order.idxOf j < order.idxOf i := by
    rcases lt_or_eq_of_le hc with h | h
    · exact h
    · exfalso
      apply hne
      have h1 := List.getElem_idxOf (List.idxOf_lt_length_of_mem (hmem j hj))
      have h2 := List.getElem_idxOf (List.idxOf_lt_length_of_mem (hmem i hi))
      rw [← h1, ← h2]
      congr 1
  have hp := lexsort_pairwise n ((List.range n).map fun t j => (calcCoos step npts (streamline step (fun _ _ => some wd) (hubs t) (some wd)) (hubs j)).1.map
    fun xy => xy.1)
  have hl := List.pairwise_iff_getElem.1 hp (order.idxOf j) (order.idxOf i) (List.idxOf_lt_length_of_mem (hmem j hj))
    (List.idxOf_lt_length_of_mem (hmem i hi)) hlt
  have e1 : order[order.idxOf j]'(List.idxOf_lt_length_of_mem (hmem j hj)) = j := List.getElem_idxOf _
  have e2 : order[order.idxOf i]'(List.idxOf_lt_length_of_mem (hmem i hi)) = i := List.getElem_idxOf _
  change lexLe _ (order[order.idxOf j]'_) (order[order.idxOf i]'_) at hl
  rw [e1, e2, ← List.map_reverse] at hl
  obtain ⟨m, rfl⟩ : ∃ m, n = m + 1 := ⟨n - 1, by omega⟩
  rw [List.range_succ, List.reverse_append] at hl
  simp only [Nat.add_sub_cancel] at h0 hij h1
  simp only [List.reverse_cons, List.reverse_nil, List.nil_append, List.cons_append, List.map_cons, lexLe, C61_uniform step hs npts hn] at hl
  rw [if_pos ⟨h0.trans hij, h1⟩, if_pos ⟨h0, hij.trans h1⟩] at hl
  simp only [Option.map_some] at hl
  rcases hl with hl | ⟨hl, -⟩ <;> linarith

/-- In farm calculations the order of calculation is the order of the turbines in the farm, whatever the wind. -/
theorem C61_farm_order (step : ℝ) (npts n : ℕ) (hn : 0 < npts) (flow : Option (ℝ × ℝ) → ℝ → Option ℝ) (hubs : ℕ → V3) (wd0 : ℕ → Option ℝ) :
    (farmCalc step npts n flow hubs wd0).1 = List.range n ∧
    ∀ t < n, ∀ p : V3, (calcCoos step npts ((farmCalc step npts n flow hubs wd0).2 t) p).1 = none := by
  have hnan : ∀ hub : V3, ∀ i, (streamline step flow hub none (i + 1)).xy = none := by
    intro hub i
    induction i with
    | zero => simp [streamline, start, next, nextXY]
    | succ i ih =>
      have : streamline step flow hub none (i + 1 + 1) = next step flow (streamline step flow hub none (i + 1)) := rfl
      rw [this]
      simp [next, nextXY, ih]
  have hc : ∀ hub p : V3, (calcCoos step npts (streamline step flow hub none) p).1 = none := by
    intro hub p
    unfold calcCoos
    simp only
    by_cases h2 : 1 < npts
    · obtain ⟨-, h⟩ := argmin_nan npts (fun i => dist2D p (streamline step flow hub none i)) ⟨1, h2, by simp [dist2D, hnan hub 0]⟩
      have h' : (streamline step flow hub none (npArgmin npts fun i => dist2D p (streamline step flow hub none i))).xy = none := by
        simpa [dist2D] using h
      rw [h']
    · obtain rfl : npts = 1 := by omega
      obtain ⟨h, -⟩ := argmin_num 1 (fun i => dist2D p (streamline step flow hub none i)) one_pos (by
        intro i hi; obtain rfl : i = 0 := by omega
        simp [dist2D, streamline, start])
      have h0 : npArgmin 1 (fun i => dist2D p (streamline step flow hub none i)) = 0 := by omega
      rw [h0]
      simp [streamline, start]
  have hord : (farmCalc step npts n flow hubs wd0).1 = List.range n := by
    simp only [farmCalc, getData, calcOrder, hc, Option.map_none, lexsort]
    apply List.mergeSort_of_pairwise
    have : ∀ (m : ℕ) (i j : ℕ), lexLe (List.replicate m fun _ => none) i j := by
      intro m i j
      induction m with
      | zero => trivial
      | succ m ih => simpa [List.replicate_succ, lexLe] using ih
    have hr : ((List.range n).map fun (_ : ℕ) (_ : ℕ) => (none : Option ℝ)).reverse = List.replicate n fun _ => none := by
      simp [List.map_const']
    rw [hr]
    exact List.pairwise_of_forall (fun i j => by simpa using this n i j)
  refine ⟨hord, ?_⟩
  intro t ht p
  have hget : ∀ k < n, (List.range n).getD k 0 = k := by
    intro k hk; simp [List.getD, hk]
  have e : (farmCalc step npts n flow hubs wd0).2 t = streamline step flow (hubs t) none := by
    have h1 : calcOrder step npts n (fun t => streamline step flow (hubs t) none) hubs = List.range n := hord
    simp only [farmCalc, getData, h1]
    rw [if_pos]
    · rw [hget t ht]
    · intro k hk
      simp [streamline, start]
  rw [e]
  exact hc _ _

/-! ## Non-vacuity -/

/-- wind from the west, two turbines in a row, 500 m apart -/
example : calcCoos 100 200 (streamline 100 (fun _ _ => some 270) ⟨0, 0, 90⟩ (some 270)) ⟨500, 20, 100⟩ = (some (500, 20), 10) := by
  rw [C61_uniform 100 (by norm_num) 200 (by norm_num), Foxes.Props.Frames.C32_west_wind]
  norm_num

/-- in the order of the upstream and the downstream turbine, the downstream turbine comes first -/
example : (calcOrder 100 200 2 (fun t => streamline 100 (fun _ _ => some 270) ⟨500 * t, 0, 90⟩ (some 270)) fun t => ⟨500 * t, 0, 90⟩).idxOf 1 <
    (calcOrder 100 200 2 (fun t => streamline 100 (fun _ _ => some 270) ⟨500 * t, 0, 90⟩ (some 270)) fun t => ⟨500 * t, 0, 90⟩).idxOf 0 :=
  C61_order_reversed 100 (by norm_num) 200 2 (by norm_num) (fun t => ⟨500 * t, 0, 90⟩) 270 0 (by norm_num) (by
    rw [Foxes.Props.Frames.C32_west_wind]; norm_num)

/-- three turbines, the last one is the first in the wind: the others are sorted by distance -/
example : (calcOrder 100 200 3 (fun t => streamline 100 (fun _ _ => some 270) ⟨1000 - 500 * t, 0, 90⟩ (some 270)) fun t => ⟨1000 - 500 * t, 0, 90⟩).idxOf 1 <
    (calcOrder 100 200 3 (fun t => streamline 100 (fun _ _ => some 270) ⟨1000 - 500 * t, 0, 90⟩ (some 270)) fun t => ⟨1000 - 500 * t, 0, 90⟩).idxOf 0 :=
  C61_order_downstream 100 (by norm_num) 200 3 (by norm_num) (fun t => ⟨1000 - 500 * t, 0, 90⟩) 270 1 0 (by norm_num) (by norm_num)
    (by rw [Foxes.Props.Frames.C32_west_wind]; norm_num)
    (by rw [Foxes.Props.Frames.C32_west_wind, Foxes.Props.Frames.C32_west_wind]; norm_num)
    (by rw [Foxes.Props.Frames.C32_west_wind]; norm_num)

end

end Foxes.Props.Streamlines
