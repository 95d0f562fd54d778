import Verif.Model.OnePoint
import Verif.Props.FieldData
import Verif.Props.WindDir
import Mathlib.Tactic.Linarith
import Mathlib.Tactic.Ring
import Mathlib.Tactic.FieldSimp
import Mathlib.Tactic.NormNum
/-
C56: inhomogeneous inflow from time series at one point (OnePointFlowStates).
-/
namespace Foxes.Props.OnePoint
open Foxes.OnePoint Foxes.WindDir Foxes.Props.FieldData
open Foxes.FieldData (inside along)

/-! ### Specification -/

/-- the wind blows along the unit vector `e` in all states; the air moves by `l s` in the time step of state `s` -/
def Straight (L : Lines) (e : V2) (l : ℕ → ℝ) : Prop :=
  e.1 ^ 2 + e.2 ^ 2 = 1 ∧ ∀ s < L.n, 0 < l s ∧ L.dxy 0 s = (l s * e.1, l s * e.2)

/-- how far downstream of the reference the point is -/
def downstream (e ref p : V2) : ℝ := (p.1 - ref.1) * e.1 + (p.2 - ref.2) * e.2

/-- distance covered in the `j` time steps up to and including state `s` -/
noncomputable def past (l : ℕ → ℝ) (s j : ℕ) : ℝ := ∑ i ∈ Finset.range j, l (s - i)

/-- distance covered in the `j` time steps after state `s` -/
noncomputable def future (l : ℕ → ℝ) (s j : ℕ) : ℝ := ∑ i ∈ Finset.range j, l (s + 1 + i)

/-! ### Reduction to distances along the wind -/

open scoped Classical in
noncomputable def sev (x a : ℝ) : Option ℝ := if (a < 0 ∧ a ≤ x ∧ x ≤ 0) ∨ (0 < a ∧ 0 ≤ x ∧ x ≤ a) then some (x / |a|) else none

noncomputable def sback (l : ℕ → ℝ) (x : ℝ) : ℕ → ℤ × Option ℝ
  | 0 => match sev (x - l 0) (-l 0) with
      | some w => (0, some w)
      | none => (-1, none)
  | k + 1 => match sev (x - l (k + 1)) (-l (k + 1)) with
      | some w => (k + 1, some w)
      | none => sback l (x - l (k + 1)) k

noncomputable def sfwd (l : ℕ → ℝ) (n : ℕ) (x : ℝ) (k : ℕ) : ℤ × Option ℝ :=
  if k < n then
    match sev (x + l k) (l k) with
    | some w => (k, some w)
    | none => sfwd l n (x + l k) (k + 1)
  else (k, none)
termination_by n - k

lemma dot_add (a b c : V2) : dot (a + b) c = dot a c + dot b c := by simp only [dot, Prod.fst_add, Prod.snd_add]; ring
lemma dot_neg (a c : V2) : dot (-a) c = -dot a c := by simp only [dot, Prod.fst_neg, Prod.snd_neg]; ring

lemma dot_sub (a b c : V2) : dot (a - b) c = dot a c - dot b c := by simp only [dot, Prod.fst_sub, Prod.snd_sub]; ring

lemma eval_sev (p hd h0 : V2) : evalTrace p hd h0 = sev (dot p (unit h0)) (dot hd (unit h0)) := by
  unfold evalTrace sev
  simp only

lemma back_scalar (dxy : ℕ → V2) (s : ℕ) : ∀ (k : ℕ) (p : V2), back dxy ((k : ℤ) - s) p k =
    sback (fun k => dot (dxy k) (unit (dxy s))) (dot p (unit (dxy s))) k := by
  intro k
  induction k with
  | zero =>
      intro p
      have e : (((0 : ℕ) : ℤ) - (((0 : ℕ) : ℤ) - (s : ℤ))).toNat = s := by omega
      simp only [back, sback]
      rw [e, eval_sev]
      simp only [dot_neg, ← sub_eq_add_neg, dot_sub]
      cases sev (dot p (unit (dxy s)) - dot (dxy 0) (unit (dxy s))) (-dot (dxy 0) (unit (dxy s))) <;> rfl
  | succ k ih =>
      intro p
      have e : (((k + 1 : ℕ) : ℤ) - (((k + 1 : ℕ) : ℤ) - (s : ℤ))).toNat = s := by omega
      simp only [back, sback]
      rw [e]
      have e2 : ((k + 1 : ℕ) : ℤ) - (s : ℤ) - 1 = (k : ℤ) - s := by push_cast; ring
      rw [e2, ih, eval_sev]
      simp only [dot_neg, ← sub_eq_add_neg, dot_sub]
      cases sev (dot p (unit (dxy s)) - dot (dxy (k + 1)) (unit (dxy s))) (-dot (dxy (k + 1)) (unit (dxy s))) <;> rfl

lemma fwd_scalar (dxy : ℕ → V2) (n s : ℕ) : ∀ (m k : ℕ) (p : V2), n - k = m → fwd dxy n ((k : ℤ) - s) p k =
    sfwd (fun k => dot (dxy k) (unit (dxy s))) n (dot p (unit (dxy s))) k := by
  intro m
  induction m with
  | zero =>
      intro k p h
      unfold fwd sfwd
      rw [if_neg (by omega), if_neg (by omega)]
  | succ m ih =>
      intro k p h
      have e : ((k : ℤ) - ((k : ℤ) - (s : ℤ))).toNat = s := by omega
      unfold fwd sfwd
      rw [if_pos (by omega), if_pos (by omega)]
      simp only
      rw [e]
      have e2 : (k : ℤ) - (s : ℤ) + 1 = ((k + 1 : ℕ) : ℤ) - s := by push_cast; ring
      rw [e2, ih (k + 1) _ (by omega), eval_sev]
      simp only [dot_add]
      cases sev (dot p (unit (dxy s)) + dot (dxy k) (unit (dxy s))) (dot (dxy k) (unit (dxy s))) <;> rfl

open scoped Classical in
noncomputable def sIdx (l : ℕ → ℝ) (n s : ℕ) (x : ℝ) : ℤ × Option ℝ :=
  if 1e-10 ≤ x ∧ x ≤ 1e-10 then (s, some (-1))
  else match sback l x s with
    | (k, some c) => (k, some c)
    | (_, none) => sfwd l n x (s + 1)

lemma indices_scalar (dxy : ℕ → V2) (n s : ℕ) (p : V2) :
    statesIndices dxy n s p = sIdx (fun k => dot (dxy k) (unit (dxy s))) n s (dot p (unit (dxy s))) := by
  have hb := back_scalar dxy s s p
  rw [sub_self] at hb
  have hf := fwd_scalar dxy n s (n - (s + 1)) (s + 1) p rfl
  have e : ((s + 1 : ℕ) : ℤ) - (s : ℤ) = 1 := by push_cast; ring
  rw [e] at hf
  unfold statesIndices sIdx evalLocal
  simp only
  rw [hb, hf]
  split_ifs <;> rfl

/-! ### Where the trace ends -/

lemma sev_range (x a w : ℝ) (h : sev x a = some w) : (a < 0 ∧ -1 ≤ w ∧ w ≤ 0) ∨ (0 < a ∧ 0 ≤ w ∧ w ≤ 1) := by
  unfold sev at h
  split_ifs at h with hc
  have h := Option.some.inj h
  subst h
  rcases hc with ⟨h1, h2, h3⟩ | ⟨h1, h2, h3⟩
  · left
    rw [abs_of_neg h1]
    refine ⟨h1, ?_, ?_⟩
    · rw [le_div_iff₀ (by linarith)]; linarith
    · exact div_nonpos_of_nonpos_of_nonneg h3 (by linarith)
  · right
    rw [abs_of_pos h1]
    exact ⟨h1, div_nonneg h2 h1.le, by rw [div_le_one h1]; exact h3⟩

/-- the trace either ends in a state with a coefficient within -1 and 1, or after the last state -/
def Ends (n : ℕ) (r : ℤ × Option ℝ) : Prop :=
  (∃ k : ℕ, ∃ c : ℝ, k < n ∧ r = ((k : ℤ), some c) ∧ -1 ≤ c ∧ c ≤ 1) ∨ (∃ k : ℕ, n ≤ k ∧ r = ((k : ℤ), none))

lemma sback_ends (l : ℕ → ℝ) (n : ℕ) : ∀ (k : ℕ) (x : ℝ), k < n →
    Ends n (sback l x k) ∧ (sback l x k).2.isSome ∨ (sback l x k).2 = none := by
  intro k
  induction k with
  | zero =>
      intro x hk
      simp only [sback]
      cases h : sev (x - l 0) (-l 0) with
      | none => right; rfl
      | some w =>
          left
          have := sev_range _ _ _ h
          refine ⟨Or.inl ⟨0, w, hk, rfl, ?_, ?_⟩, rfl⟩ <;> rcases this with h | h <;> linarith
  | succ k ih =>
      intro x hk
      simp only [sback]
      cases h : sev (x - l (k + 1)) (-l (k + 1)) with
      | none => exact ih _ (by omega)
      | some w =>
          left
          have := sev_range _ _ _ h
          refine ⟨Or.inl ⟨k + 1, w, hk, by push_cast; rfl, ?_, ?_⟩, rfl⟩ <;> rcases this with h | h <;> linarith

lemma sfwd_ends (l : ℕ → ℝ) (n : ℕ) : ∀ (m k : ℕ) (x : ℝ), n - k = m → Ends n (sfwd l n x k) := by
  intro m
  induction m with
  | zero =>
      intro k x h
      unfold sfwd
      rw [if_neg (by omega)]
      exact Or.inr ⟨k, by omega, rfl⟩
  | succ m ih =>
      intro k x h
      unfold sfwd
      rw [if_pos (by omega)]
      cases hs : sev (x + l k) (l k) with
      | none => exact ih (k + 1) _ (by omega)
      | some w =>
          have := sev_range _ _ _ hs
          refine Or.inl ⟨k, w, by omega, rfl, ?_, ?_⟩ <;> rcases this with h | h <;> linarith

lemma indices_end (dxy : ℕ → V2) (n s : ℕ) (hs : s < n) (p : V2) : Ends n (statesIndices dxy n s p) := by
  rw [indices_scalar]
  unfold sIdx
  split_ifs with h
  · exact Or.inl ⟨s, -1, hs, rfl, by norm_num, by norm_num⟩
  · rcases sback_ends (fun k => dot (dxy k) (unit (dxy s))) n s (dot p (unit (dxy s))) hs with ⟨h1, h2⟩ | h1
    · cases e : sback (fun k => dot (dxy k) (unit (dxy s))) (dot p (unit (dxy s))) s with
      | mk k c =>
          rw [e] at h1 h2
          cases c with
          | none => simp at h2
          | some c => exact h1
    · cases e : sback (fun k => dot (dxy k) (unit (dxy s))) (dot p (unit (dxy s))) s with
      | mk k c =>
          rw [e] at h1
          simp only at h1
          subst h1
          exact sfwd_ends _ n _ _ _ rfl

lemma interp_bounds (n : ℕ) (hn : 0 < n) (data : ℕ → ℝ) (lo hi : ℝ) (hd : ∀ s < n, lo ≤ data s ∧ data s ≤ hi) (r : ℤ × Option ℝ)
    (hr : Ends n r) : lo ≤ interpTime n data r ∧ interpTime n data r ≤ hi := by
  have hidx : ∀ k : ℕ, k < n → pyIdx n (k : ℤ) < n ∧ pyIdx n ((k : ℤ) - 1) < n := by
    intro k hk
    unfold pyIdx
    constructor <;> split_ifs <;> omega
  unfold interpTime
  rcases hr with ⟨k, c, hk, rfl, h1, h2⟩ | ⟨k, hk, rfl⟩
  · rw [if_neg (by simp), if_neg (by simp; exact hk)]
    simp only
    obtain ⟨i1, i2⟩ := hidx k hk
    obtain ⟨a1, a2⟩ := hd _ i1
    obtain ⟨b1, b2⟩ := hd _ i2
    split_ifs with hc
    · constructor <;> nlinarith
    · push Not at hc
      constructor <;> nlinarith
  · rw [if_neg (by simp), if_pos (by simpa using hk)]
    exact hd _ (by omega)

/-- **C56 (no overshoot).** For every wind history, every value found at a point lies between bounds that hold for all entries of the
variable (one height, or a point between the heights). -/
theorem C56_bounds (L : Lines) (ref : V2) (s : ℕ) (hs : s < L.n) (hsort : L.heights.Pairwise (· < ·)) (hne : L.heights ≠ []) (p : V2) (z : ℝ)
    (v : String) (r lo hi : ℝ) (hr : value L true ref s p z v = some r)
    (hd : ∀ h < L.heights.length, ∀ k < L.n, lo ≤ L.val v h k ∧ L.val v h k ≤ hi) : lo ≤ r ∧ r ≤ hi := by
  have hat : ∀ h < L.heights.length, lo ≤ interpTime L.n (L.val v h) (statesIndices (L.dxy h) L.n s (p - ref)) ∧
      interpTime L.n (L.val v h) (statesIndices (L.dxy h) L.n s (p - ref)) ≤ hi :=
    fun h hh => interp_bounds L.n (by omega) _ lo hi (hd h hh) _ (indices_end _ _ _ hs _)
  have hpos := List.length_pos_iff.2 hne
  unfold value at hr
  simp only at hr
  split_ifs at hr with h1 h2
  · have hr := Option.some.inj hr
    subst hr
    have hin : inside L.heights z = true := by
      cases e : inside L.heights z with
      | true => rfl
      | false => exact absurd e (by simpa using h2)
    obtain ⟨i, j, t, hc⟩ := cell_exists L.heights z hin hne
    rw [along_cell L.heights hsort z i j t hc]
    obtain ⟨t0, t1, hi', hj'⟩ := cell_t L.heights hsort z i j t hc
    exact mix_bounds _ _ _ _ _ t0 t1 (hat i hi') (hat j hj')
  · have hr := Option.some.inj hr
    subst hr
    exact hat 0 hpos

/-- **C56 (uniform data).** A variable that does not change in time and height has its value everywhere. -/
theorem C56_uniform (L : Lines) (ref : V2) (s : ℕ) (hs : s < L.n) (hsort : L.heights.Pairwise (· < ·)) (hne : L.heights ≠ []) (p : V2) (z : ℝ)
    (v : String) (r a : ℝ) (hr : value L true ref s p z v = some r)
    (hd : ∀ h < L.heights.length, ∀ k < L.n, L.val v h k = a) : r = a := by
  have := C56_bounds L ref s hs hsort hne p z v r a a hr (fun h hh k hk => by rw [hd h hh k hk]; exact ⟨le_refl _, le_refl _⟩)
  linarith [this.1, this.2]

/-! ### Displacements across the wind -/

/-- **C56 (across the wind).** For every wind history, moving a point across the wind direction of its state (the same at all heights, or one
height only) does not change any result. -/
theorem C56_lateral (L : Lines) (be : Bool) (ref : V2) (ovars : List String) (i0 i : ℕ) (p q : V2) (z : ℝ)
    (h : ∀ k, (p.1 - q.1) * (L.dxy k (i0 + i)).1 + (p.2 - q.2) * (L.dxy k (i0 + i)).2 = 0) :
    calculate L be ref ovars i0 i p z = calculate L be ref ovars i0 i q z := by
  have hv : ∀ v, value L be ref (i0 + i) p z v = value L be ref (i0 + i) q z v := by
    intro v
    have e : ∀ k, statesIndices (L.dxy k) L.n (i0 + i) (p - ref) = statesIndices (L.dxy k) L.n (i0 + i) (q - ref) := by
      intro k
      rw [indices_scalar, indices_scalar]
      have : dot (p - ref) (unit (L.dxy k (i0 + i))) = dot (q - ref) (unit (L.dxy k (i0 + i))) := by
        have h1 : dot (p - ref) (unit (L.dxy k (i0 + i))) - dot (q - ref) (unit (L.dxy k (i0 + i))) =
            ((p.1 - q.1) * (L.dxy k (i0 + i)).1 + (p.2 - q.2) * (L.dxy k (i0 + i)).2) / nrm (L.dxy k (i0 + i)) := by
          simp only [dot, unit, Prod.fst_sub, Prod.snd_sub]; ring
        rw [h k, zero_div] at h1
        linarith
      rw [this]
    unfold value
    simp only [e]
  unfold calculate
  simp only [hv]

/-- **C56 (reference).** Only the position relative to the reference matters. -/
theorem C56_relative (L : Lines) (be : Bool) (ref d : V2) (ovars : List String) (i0 i : ℕ) (p : V2) (z : ℝ) :
    calculate L be (ref + d) ovars i0 i (p + d) z = calculate L be ref ovars i0 i p z := by
  have : p + d - (ref + d) = p - ref := by simp
  unfold calculate value
  simp only [this]

/-- **C56 (chunks).** The result of a state does not depend on the chunk that holds it. -/
theorem C56_chunks (L : Lines) (be : Bool) (ref : V2) (ovars : List String) (i0 i j0 j : ℕ) (h : i0 + i = j0 + j) (p : V2) (z : ℝ) :
    calculate L be ref ovars i0 i p z = calculate L be ref ovars j0 j p z := by
  unfold calculate
  rw [h]

/-! ### Winds along one direction -/

lemma past_succ (l : ℕ → ℝ) (k j : ℕ) : past l k (j + 1) = l k + past l (k - 1) j := by
  unfold past
  rw [Finset.sum_range_succ', add_comm]
  congr 1
  refine Finset.sum_congr rfl (fun i _ => ?_)
  congr 1; omega

lemma past_nonneg (l : ℕ → ℝ) (k j : ℕ) (h : ∀ i ≤ k, 0 < l i) : 0 ≤ past l k j :=
  Finset.sum_nonneg (fun i _ => (h _ (Nat.sub_le _ _)).le)

lemma past_pos (l : ℕ → ℝ) (k j : ℕ) (h : ∀ i ≤ k, 0 < l i) (hj : 0 < j) : 0 < past l k j := by
  obtain ⟨j, rfl⟩ : ∃ i, j = i + 1 := ⟨j - 1, by omega⟩
  rw [past_succ]
  have := past_nonneg l (k - 1) j (fun i hi => h i (by omega))
  linarith [h k (le_refl _)]

lemma interp_back (n : ℕ) (data : ℕ → ℝ) (k : ℕ) (c : ℝ) (hk : k < n) (hc : c ≤ 0) :
    interpTime n data ((k : ℤ), some c) = mix (1 + c) (data k) (data (pyIdx n ((k : ℤ) - 1))) := by
  unfold interpTime mix
  rw [if_neg (by simp), if_neg (by simp; exact hk)]
  simp only
  rw [if_pos hc]
  have : pyIdx n (k : ℤ) = k := by unfold pyIdx; rw [if_neg (by omega)]; omega
  rw [this]
  ring

lemma interp_fwd (n : ℕ) (data : ℕ → ℝ) (k : ℕ) (c : ℝ) (hk : k + 1 < n) (hc : 0 < c) :
    interpTime n data (((k + 1 : ℕ) : ℤ), some c) = mix (1 - c) (data k) (data (k + 1)) := by
  unfold interpTime mix
  rw [if_neg (by simp; omega), if_neg (by push_cast; omega)]
  simp only
  rw [if_neg (by linarith)]
  have e1 : pyIdx n ((k + 1 : ℕ) : ℤ) = k + 1 := by unfold pyIdx; rw [if_neg (by omega)]; omega
  have e2 : pyIdx n (((k + 1 : ℕ) : ℤ) - 1) = k := by unfold pyIdx; rw [if_neg (by push_cast; omega)]; push_cast; omega
  rw [e1, e2]
  ring

lemma sev_back (x a : ℝ) (ha : 0 < a) (h0 : 0 ≤ x) (h1 : x ≤ a) : sev (x - a) (-a) = some (x / a - 1) := by
  unfold sev
  rw [if_pos (Or.inl ⟨by linarith, by linarith, by linarith⟩), abs_neg, abs_of_pos ha]
  congr 1; field_simp

lemma sev_back_none (x a : ℝ) (ha : 0 < a) (h : x < 0 ∨ a < x) : sev (x - a) (-a) = none := by
  unfold sev
  rw [if_neg]
  rintro (⟨_, h2, h3⟩ | ⟨h1, _, _⟩)
  · rcases h with h | h <;> linarith
  · linarith

lemma sev_fwd (x a : ℝ) (ha : 0 < a) (h0 : x ≤ 0) (h1 : -a ≤ x) : sev (x + a) a = some (x / a + 1) := by
  unfold sev
  rw [if_pos (Or.inr ⟨ha, by linarith, by linarith⟩), abs_of_pos ha]
  congr 1; field_simp

lemma sev_fwd_none (x a : ℝ) (ha : 0 < a) (h : 0 < x ∨ x < -a) : sev (x + a) a = none := by
  unfold sev
  rw [if_neg]
  rintro (⟨h1, _, _⟩ | ⟨_, h2, h3⟩)
  · linarith
  · rcases h with h | h <;> linarith

lemma sback_value (l : ℕ → ℝ) (n : ℕ) (data : ℕ → ℝ) : ∀ (j k : ℕ) (x : ℝ), j ≤ k → k < n → (∀ i ≤ k, 0 < l i) → past l k j ≤ x →
    x ≤ past l k (j + 1) → (sback l x k).2.isSome ∧
    interpTime n data (sback l x k) = mix ((x - past l k j) / l (k - j)) (data (k - j)) (data (pyIdx n ((k : ℤ) - j - 1))) := by
  intro j
  induction j with
  | zero =>
      intro k x _ hk hl h1 h2
      rw [past_succ] at h2
      simp only [past, Finset.range_zero, Finset.sum_empty, add_zero] at h1 h2
      have hv := sev_back x (l k) (hl k (le_refl _)) h1 h2
      have e : sback l x k = ((k : ℤ), some (x / l k - 1)) := by
        cases k with
        | zero => simp only [sback]; rw [hv]; rfl
        | succ k => simp only [sback]; rw [hv]; push_cast; rfl
      rw [e]
      refine ⟨rfl, ?_⟩
      have hlk := hl k (le_refl _)
      rw [interp_back n data k _ hk (by rw [sub_nonpos, div_le_one hlk]; exact h2)]
      simp [past]
  | succ j ih =>
      intro k x hj hk hl h1 h2
      obtain ⟨k, rfl⟩ : ∃ m, k = m + 1 := ⟨k - 1, by omega⟩
      rw [past_succ] at h1 h2
      simp only [Nat.add_sub_cancel] at h1 h2
      have hp := past_nonneg l k j (fun i hi => hl i (by omega))
      have hlk := hl (k + 1) (le_refl _)
      rcases lt_or_eq_of_le (show l (k + 1) ≤ x by linarith) with hx | hx
      · have e : sback l x (k + 1) = sback l (x - l (k + 1)) k := by
          simp only [sback]
          rw [sev_back_none _ _ hlk (Or.inr hx)]
        rw [e]
        obtain ⟨i1, i2⟩ := ih k (x - l (k + 1)) (by omega) (by omega) (fun i hi => hl i (by omega)) (by linarith) (by linarith)
        refine ⟨i1, ?_⟩
        rw [i2, past_succ]
        have e1 : k + 1 - (j + 1) = k - j := by omega
        have e2 : ((k + 1 : ℕ) : ℤ) - ((j + 1 : ℕ) : ℤ) - 1 = (k : ℤ) - j - 1 := by push_cast; ring
        rw [e1, e2]
        simp only [Nat.add_sub_cancel]
        congr 2
        ring
      · have hj0 : j = 0 := by
          by_contra hne
          have := past_pos l k j (fun i hi => hl i (by omega)) (by omega)
          linarith
        subst hj0
        have e : sback l x (k + 1) = (((k + 1 : ℕ) : ℤ), some (x / l (k + 1) - 1)) := by
          simp only [sback]
          rw [sev_back x _ hlk (by linarith) (by linarith)]
          push_cast; rfl
        rw [e]
        refine ⟨rfl, ?_⟩
        have hx1 : x / l (k + 1) = 1 := by rw [← hx]; exact div_self hlk.ne'
        rw [interp_back n data (k + 1) _ hk (by rw [hx1]; simp), past_succ, hx1, ← hx]
        have e3 : pyIdx n (((k + 1 : ℕ) : ℤ) - 1) = k := by unfold pyIdx; rw [if_neg (by push_cast; omega)]; push_cast; omega
        rw [e3]
        simp [past, mix]

lemma sback_none (l : ℕ → ℝ) : ∀ (k : ℕ) (x : ℝ), (∀ i ≤ k, 0 < l i) → (x < 0 ∨ past l k (k + 1) < x) → (sback l x k).2 = none := by
  intro k
  induction k with
  | zero =>
      intro x hl h
      simp only [sback]
      rw [sev_back_none _ _ (hl 0 (le_refl _))]
      rcases h with h | h
      · exact Or.inl h
      · right; simpa [past] using h
  | succ k ih =>
      intro x hl h
      have hlk := hl (k + 1) (le_refl _)
      have hpos := past_pos l k (k + 1) (fun i hi => hl i (by omega)) (by omega)
      rw [past_succ] at h
      simp only [Nat.add_sub_cancel] at h
      simp only [sback]
      rw [sev_back_none _ _ hlk (by rcases h with h | h; exact Or.inl h; right; linarith)]
      apply ih _ (fun i hi => hl i (by omega))
      rcases h with h | h
      · left; linarith
      · right; linarith

lemma future_succ (l : ℕ → ℝ) (s j : ℕ) : future l s (j + 1) = l (s + 1) + future l (s + 1) j := by
  unfold future
  rw [Finset.sum_range_succ', add_comm]
  congr 1
  refine Finset.sum_congr rfl (fun i _ => ?_)
  congr 1; omega

lemma future_nonneg (l : ℕ → ℝ) (n s j : ℕ) (h : ∀ i < n, 0 < l i) (hj : s + j < n) : 0 ≤ future l s j :=
  Finset.sum_nonneg (fun i hi => (h _ (by have := Finset.mem_range.1 hi; omega)).le)

/-- the forward search for a point strictly between two positions, or exactly at one of them -/
lemma sfwd_value (l : ℕ → ℝ) (n : ℕ) (data : ℕ → ℝ) (hl : ∀ i < n, 0 < l i) : ∀ (j s : ℕ) (x : ℝ), s + 1 + j < n →
    future l s j < -x → -x ≤ future l s (j + 1) →
    interpTime n data (sfwd l n x (s + 1)) =
      if -x = future l s (j + 1) then data (s + j) else mix ((-x - future l s j) / l (s + 1 + j)) (data (s + j)) (data (s + j + 1)) := by
  intro j
  induction j with
  | zero =>
      intro s x hs h1 h2
      have hls := hl (s + 1) (by omega)
      rw [future_succ] at h2
      simp only [future, Finset.range_zero, Finset.sum_empty, add_zero] at h1 h2
      have e : sfwd l n x (s + 1) = (((s + 1 : ℕ) : ℤ), some (x / l (s + 1) + 1)) := by
        unfold sfwd
        rw [if_pos (by omega), sev_fwd x _ hls (by linarith) (by linarith)]
      rw [e, future_succ]
      simp only [future, Finset.range_zero, Finset.sum_empty, add_zero, sub_zero]
      split_ifs with hx
      · have hx1 : x / l (s + 1) + 1 = 0 := by
          have : x = -l (s + 1) := by linarith
          rw [this, neg_div, div_self hls.ne']; ring
        rw [hx1, interp_back n data (s + 1) 0 (by omega) (le_refl _)]
        have e3 : pyIdx n (((s + 1 : ℕ) : ℤ) - 1) = s := by unfold pyIdx; rw [if_neg (by push_cast; omega)]; push_cast; omega
        rw [e3]
        simp [mix]
      · have hlt : -x < l (s + 1) := lt_of_le_of_ne h2 hx
        have : 0 < x / l (s + 1) + 1 := by
          have : -1 < x / l (s + 1) := by rw [lt_div_iff₀ hls]; linarith
          linarith
        rw [interp_fwd n data s _ (by omega) this]
        congr 1
        ring
  | succ j ih =>
      intro s x hs h1 h2
      have hls := hl (s + 1) (by omega)
      rw [future_succ] at h1 h2
      have hf := future_nonneg l n (s + 1) j hl (by omega)
      have e : sfwd l n x (s + 1) = sfwd l n (x + l (s + 1)) (s + 1 + 1) := by
        conv_lhs => unfold sfwd
        rw [if_pos (by omega), sev_fwd_none x _ hls (by right; linarith)]
      rw [e, ih (s + 1) (x + l (s + 1)) (by omega) (by linarith) (by linarith), future_succ l s (j + 1), future_succ l s j]
      have e1 : s + 1 + j = s + (j + 1) := by omega
      have e2 : s + 1 + 1 + j = s + 1 + (j + 1) := by omega
      have e3 : s + (j + 1) + 1 = s + 1 + j + 1 := by omega
      have c : (-(x + l (s + 1)) = future l (s + 1) (j + 1)) ↔ (-x = l (s + 1) + future l (s + 1) (j + 1)) := by
        constructor <;> intro h <;> linarith
      simp only [c]
      rw [e1, e2, e3, e1]
      congr 2
      ring

lemma sfwd_none (l : ℕ → ℝ) (n : ℕ) (hl : ∀ i < n, 0 < l i) : ∀ (m s : ℕ) (x : ℝ), n - (s + 1) = m →
    (0 < x ∨ future l s m < -x) → (sfwd l n x (s + 1)).2 = none := by
  intro m
  induction m with
  | zero => intro s x hm h; unfold sfwd; rw [if_neg (by omega)]
  | succ m ih =>
      intro s x hm h
      have hls := hl (s + 1) (by omega)
      have hf := future_nonneg l n (s + 1) m hl (by omega)
      rw [future_succ] at h
      unfold sfwd
      rw [if_pos (by omega), sev_fwd_none x _ hls (by rcases h with h | h; exact Or.inl h; right; linarith)]
      apply ih (s + 1) _ (by omega)
      rcases h with h | h
      · left; linarith
      · right; linarith

lemma ends_none (n : ℕ) (data : ℕ → ℝ) (r : ℤ × Option ℝ) (h : Ends n r) (h2 : r.2 = none) : interpTime n data r = data (n - 1) := by
  rcases h with ⟨k, c, _, rfl, _, _⟩ | ⟨k, hk, rfl⟩
  · simp at h2
  · unfold interpTime
    rw [if_neg (by simp), if_pos (by simpa using hk)]

lemma unit_straight (a : ℝ) (e : V2) (he : e.1 ^ 2 + e.2 ^ 2 = 1) (ha : 0 < a) : unit (a * e.1, a * e.2) = e := by
  have : nrm (a * e.1, a * e.2) = a := by
    unfold nrm
    have : (a * e.1) ^ 2 + (a * e.2) ^ 2 = a ^ 2 := by
      have : (a * e.1) ^ 2 + (a * e.2) ^ 2 = a ^ 2 * (e.1 ^ 2 + e.2 ^ 2) := by ring
      rw [this, he, mul_one]
    simp only
    rw [this, Real.sqrt_sq ha.le]
  unfold unit
  rw [this]
  ext
  · simp; field_simp
  · simp; field_simp

lemma straight_value (L : Lines) (e : V2) (l : ℕ → ℝ) (hL : Straight L e l) (hh : L.heights.length ≤ 1) (be : Bool) (ref : V2) (s : ℕ) (hs : s < L.n)
    (p : V2) (z : ℝ) (v : String) : ∃ l' : ℕ → ℝ, (∀ i < L.n, l' i = l i) ∧ (∀ i < L.n, 0 < l' i) ∧
    value L be ref s p z v = some (interpTime L.n (L.val v 0) (sIdx l' L.n s (downstream e ref p))) ∧
    Ends L.n (sIdx l' L.n s (downstream e ref p)) := by
  have hu : unit (L.dxy 0 s) = e := by rw [(hL.2 s hs).2]; exact unit_straight _ _ hL.1 (hL.2 s hs).1
  have hl : ∀ i < L.n, dot (L.dxy 0 i) (unit (L.dxy 0 s)) = l i := by
    intro i hi
    rw [hu, (hL.2 i hi).2]
    unfold dot
    have : l i * e.1 * e.1 + l i * e.2 * e.2 = l i * (e.1 ^ 2 + e.2 ^ 2) := by ring
    simp only
    rw [this, hL.1, mul_one]
  have hd : dot (p - ref) (unit (L.dxy 0 s)) = downstream e ref p := by rw [hu]; rfl
  have hi := indices_scalar (L.dxy 0) L.n s (p - ref)
  rw [hd] at hi
  refine ⟨fun k => dot (L.dxy 0 k) (unit (L.dxy 0 s)), hl, fun i hi' => by show 0 < dot (L.dxy 0 i) (unit (L.dxy 0 s)); rw [hl i hi']; exact (hL.2 i hi').1, ?_, ?_⟩
  · unfold value
    simp only
    rw [if_neg (by omega), hi]
  · rw [← hi]; exact indices_end _ _ _ hs _

lemma past_congr (l l' : ℕ → ℝ) (n s j : ℕ) (hs : s < n) (h : ∀ i < n, l' i = l i) : past l' s j = past l s j :=
  Finset.sum_congr rfl (fun i _ => h _ (by omega))

lemma future_congr (l l' : ℕ → ℝ) (n s j : ℕ) (hs : s + j < n) (h : ∀ i < n, l' i = l i) : future l' s j = future l s j :=
  Finset.sum_congr rfl (fun i hi => h _ (by have := Finset.mem_range.1 hi; omega))

lemma downstream_value (L : Lines) (e : V2) (l : ℕ → ℝ) (hL : Straight L e l) (hh : L.heights.length ≤ 1) (be : Bool) (ref : V2) (s : ℕ)
    (hs : s < L.n) (p : V2) (z : ℝ) (v : String) (j : ℕ) (hj : j ≤ s) (h1 : past l s j ≤ downstream e ref p)
    (h2 : downstream e ref p ≤ past l s (j + 1)) (hne : downstream e ref p ≠ 1e-10) :
    value L be ref s p z v =
      some (mix ((downstream e ref p - past l s j) / l (s - j)) (L.val v 0 (s - j)) (L.val v 0 (pyIdx L.n ((s : ℤ) - j - 1)))) := by
  obtain ⟨l', e1, e2, e3, _⟩ := straight_value L e l hL hh be ref s hs p z v
  rw [e3]
  rw [← past_congr l l' L.n s _ hs e1] at h1 h2
  obtain ⟨i1, i2⟩ := sback_value l' L.n (L.val v 0) j s _ hj hs (fun i hi => e2 i (by omega)) h1 h2
  unfold sIdx
  rw [if_neg (fun h => hne (le_antisymm h.2 h.1))]
  cases hb : sback l' (downstream e ref p) s with
  | mk k c =>
      rw [hb] at i1 i2
      cases c with
      | none => simp at i1
      | some c =>
          simp only
          rw [i2, past_congr l l' L.n s j hs e1, e1 (s - j) (by omega)]

/-- **C56 (downstream).** If the wind keeps its direction, a point downstream of the reference has, at every state, the value which the
reference had when the air at the point passed it: after `j` whole steps of travel the value of `j` states earlier, and linear in between. -/
theorem C56_downstream (L : Lines) (e : V2) (l : ℕ → ℝ) (hL : Straight L e l) (hh : L.heights.length ≤ 1) (be : Bool) (ref : V2) (s : ℕ)
    (hs : s < L.n) (p : V2) (z : ℝ) (v : String) (j : ℕ) (hj : j < s) (h1 : past l s j ≤ downstream e ref p)
    (h2 : downstream e ref p ≤ past l s (j + 1)) (hne : downstream e ref p ≠ 1e-10) :
    value L be ref s p z v =
      some (mix ((downstream e ref p - past l s j) / l (s - j)) (L.val v 0 (s - j)) (L.val v 0 (s - j - 1))) := by
  rw [downstream_value L e l hL hh be ref s hs p z v j (by omega) h1 h2 hne]
  have : pyIdx L.n ((s : ℤ) - j - 1) = s - j - 1 := by unfold pyIdx; rw [if_neg (by omega)]; omega
  rw [this]

/-- **C56 (own state).** Points beside the reference have the values of their state. -/
theorem C56_at_reference (L : Lines) (e : V2) (l : ℕ → ℝ) (hL : Straight L e l) (hh : L.heights.length ≤ 1) (be : Bool) (ref : V2) (s : ℕ)
    (hs : s < L.n) (p : V2) (z : ℝ) (v : String) (h : downstream e ref p = 0) : value L be ref s p z v = some (L.val v 0 s) := by
  have hp := (hL.2 s hs).1
  have h2 : downstream e ref p ≤ past l s (0 + 1) := by rw [h]; simp [past]; exact hp.le
  rw [downstream_value L e l hL hh be ref s hs p z v 0 (by omega) (by rw [h]; simp [past]) h2 (by rw [h]; norm_num)]
  rw [h]
  simp [past, mix]

lemma upstream_value (L : Lines) (e : V2) (l : ℕ → ℝ) (hL : Straight L e l) (hh : L.heights.length ≤ 1) (be : Bool) (ref : V2) (s : ℕ)
    (hs : s < L.n) (p : V2) (z : ℝ) (v : String) (j : ℕ) (hj : s + 1 + j < L.n) (h1 : future l s j < -downstream e ref p)
    (h2 : -downstream e ref p ≤ future l s (j + 1)) :
    value L be ref s p z v = some (if -downstream e ref p = future l s (j + 1) then L.val v 0 (s + j) else
      mix ((-downstream e ref p - future l s j) / l (s + 1 + j)) (L.val v 0 (s + j)) (L.val v 0 (s + j + 1))) := by
  obtain ⟨l', e1, e2, e3, _⟩ := straight_value L e l hL hh be ref s hs p z v
  have hf := future_nonneg l L.n s j (fun i hi => (hL.2 i hi).1) (by omega)
  have hneg : downstream e ref p < 0 := by linarith
  rw [e3]
  have c1 := future_congr l l' L.n s j (by omega) e1
  have c2 := future_congr l l' L.n s (j + 1) (by omega) e1
  have hv := sfwd_value l' L.n (L.val v 0) e2 j s (downstream e ref p) hj (by rw [c1]; exact h1) (by rw [c2]; exact h2)
  have hb := sback_none l' s (downstream e ref p) (fun i hi => e2 i (by omega)) (Or.inl hneg)
  have : sIdx l' L.n s (downstream e ref p) = sfwd l' L.n (downstream e ref p) (s + 1) := by
    unfold sIdx
    rw [if_neg (by rintro ⟨h, _⟩; norm_num at h; linarith)]
    cases hb' : sback l' (downstream e ref p) s with
    | mk k c => rw [hb'] at hb; simp only at hb; subst hb; rfl
  rw [this, hv, c1, c2, e1 (s + 1 + j) (by omega)]

/-- **C56 (upstream), partial.** If the wind keeps its direction, a point upstream of the reference has, at every state, the value which the
reference will have when the air at the point arrives there, linear between the states. Missing: distances that are exactly those of a
whole number of steps, see `C56_upstream_steps_wrong`. -/
theorem C56_upstream_partial (L : Lines) (e : V2) (l : ℕ → ℝ) (hL : Straight L e l) (hh : L.heights.length ≤ 1) (be : Bool) (ref : V2) (s : ℕ)
    (hs : s < L.n) (p : V2) (z : ℝ) (v : String) (j : ℕ) (hj : s + 1 + j < L.n) (h1 : future l s j < -downstream e ref p)
    (h2 : -downstream e ref p < future l s (j + 1)) :
    value L be ref s p z v =
      some (mix ((-downstream e ref p - future l s j) / l (s + 1 + j)) (L.val v 0 (s + j)) (L.val v 0 (s + j + 1))) := by
  rw [upstream_value L e l hL hh be ref s hs p z v j hj h1 h2.le, if_neg h2.ne]

/-- **C56 (finding).** At the distance from which the air arrives after exactly `j + 1` steps, the value is that of `j` states later. -/
theorem C56_upstream_steps_wrong (L : Lines) (e : V2) (l : ℕ → ℝ) (hL : Straight L e l) (hh : L.heights.length ≤ 1) (be : Bool) (ref : V2) (s : ℕ)
    (hs : s < L.n) (p : V2) (z : ℝ) (v : String) (j : ℕ) (hj : s + 1 + j < L.n) (h : -downstream e ref p = future l s (j + 1)) :
    value L be ref s p z v = some (L.val v 0 (s + j)) := by
  have hp : future l s (j + 1) = future l s j + l (s + 1 + j) := by unfold future; rw [Finset.sum_range_succ]
  rw [upstream_value L e l hL hh be ref s hs p z v j hj (by rw [h, hp]; linarith [(hL.2 (s + 1 + j) hj).1]) h.le, if_pos h]

/-- **C56 (after the data).** Upstream points whose air arrives after the last state have the values of the last state. -/
theorem C56_after_data (L : Lines) (e : V2) (l : ℕ → ℝ) (hL : Straight L e l) (hh : L.heights.length ≤ 1) (be : Bool) (ref : V2) (s : ℕ)
    (hs : s < L.n) (p : V2) (z : ℝ) (v : String) (h : future l s (L.n - (s + 1)) < -downstream e ref p) :
    value L be ref s p z v = some (L.val v 0 (L.n - 1)) := by
  obtain ⟨l', e1, e2, e3, e4⟩ := straight_value L e l hL hh be ref s hs p z v
  have hf := future_nonneg l L.n s (L.n - (s + 1)) (fun i hi => (hL.2 i hi).1) (by omega)
  have hneg : downstream e ref p < 0 := by linarith
  have hb := sback_none l' s (downstream e ref p) (fun i hi => e2 i (by omega)) (Or.inl hneg)
  have hsf := sfwd_none l' L.n e2 _ s (downstream e ref p) rfl (Or.inr (by rw [future_congr l l' L.n s _ (by omega) e1]; exact h))
  have : sIdx l' L.n s (downstream e ref p) = sfwd l' L.n (downstream e ref p) (s + 1) := by
    unfold sIdx
    rw [if_neg (by rintro ⟨h, _⟩; norm_num at h; linarith)]
    cases hb' : sback l' (downstream e ref p) s with
    | mk k c => rw [hb'] at hb; simp only at hb; subst hb; rfl
  rw [e3, ends_none _ _ _ e4 (by rw [this]; exact hsf)]

/-- **C56 (finding).** Downstream points whose air passed the reference before the first state have the values of the *last* state (the
branch of the code that would use the first state is never reached). -/
theorem C56_before_data_wrong (L : Lines) (e : V2) (l : ℕ → ℝ) (hL : Straight L e l) (hh : L.heights.length ≤ 1) (be : Bool) (ref : V2) (s : ℕ)
    (hs : s < L.n) (p : V2) (z : ℝ) (v : String) (h : past l s (s + 1) < downstream e ref p) (hne : downstream e ref p ≠ 1e-10) :
    value L be ref s p z v = some (L.val v 0 (L.n - 1)) := by
  obtain ⟨l', e1, e2, e3, e4⟩ := straight_value L e l hL hh be ref s hs p z v
  have hp := past_nonneg l s (s + 1) (fun i hi => (hL.2 i (by omega)).1)
  have hb := sback_none l' s (downstream e ref p) (fun i hi => e2 i (by omega)) (Or.inr (by rw [past_congr l l' L.n s _ hs e1]; exact h))
  have hsf := sfwd_none l' L.n e2 _ s (downstream e ref p) rfl (Or.inl (by linarith))
  have : sIdx l' L.n s (downstream e ref p) = sfwd l' L.n (downstream e ref p) (s + 1) := by
    unfold sIdx
    rw [if_neg (fun h => hne (le_antisymm h.2 h.1))]
    cases hb' : sback l' (downstream e ref p) s with
    | mk k c => rw [hb'] at hb; simp only at hb; subst hb; rfl
  rw [e3, ends_none _ _ _ e4 (by rw [this]; exact hsf)]

/-- **C56 (finding).** On the last step back to the beginning of the data the values of the first state are blended with those of the *last*
state. -/
theorem C56_first_step_wrong (L : Lines) (e : V2) (l : ℕ → ℝ) (hL : Straight L e l) (hh : L.heights.length ≤ 1) (be : Bool) (ref : V2) (s : ℕ)
    (hs : s < L.n) (p : V2) (z : ℝ) (v : String) (h1 : past l s s ≤ downstream e ref p) (h2 : downstream e ref p ≤ past l s (s + 1))
    (hne : downstream e ref p ≠ 1e-10) :
    value L be ref s p z v = some (mix ((downstream e ref p - past l s s) / l 0) (L.val v 0 0) (L.val v 0 (L.n - 1))) := by
  rw [downstream_value L e l hL hh be ref s hs p z v s (by omega) h1 h2 hne]
  have : pyIdx L.n ((s : ℤ) - s - 1) = L.n - 1 := by unfold pyIdx; rw [if_pos (by omega)]; omega
  rw [this, Nat.sub_self]

/-- **C56 (finding).** In a calm state (or with time steps below one second) all points, even the reference itself, have the values of the
last state. -/
theorem C56_calm_wrong (L : Lines) (hh : L.heights.length ≤ 1) (be : Bool) (ref : V2) (s : ℕ) (hs : s < L.n) (p : V2) (z : ℝ) (v : String)
    (hc : L.dxy 0 s = (0, 0)) : value L be ref s p z v = some (L.val v 0 (L.n - 1)) := by
  have hu : unit (L.dxy 0 s) = (0, 0) := by rw [hc]; simp [unit]
  have hz : ∀ a : V2, dot a (unit (L.dxy 0 s)) = 0 := by intro a; rw [hu]; simp [dot]
  have hsev : ∀ x : ℝ, sev x 0 = none := by intro x; simp [sev]
  have hb : ∀ k x, (sback (fun _ => 0) x k).2 = none := by
    intro k
    induction k with
    | zero => intro x; simp [sback, hsev]
    | succ k ih => intro x; simp only [sback, neg_zero, hsev]; exact ih _
  have hf : ∀ m k x, L.n - k = m → (sfwd (fun _ => 0) L.n x k).2 = none := by
    intro m
    induction m with
    | zero => intro k x h; unfold sfwd; rw [if_neg (by omega)]
    | succ m ih => intro k x h; unfold sfwd; rw [if_pos (by omega)]; simp only [hsev]; exact ih _ _ (by omega)
  have he := indices_end (L.dxy 0) L.n s hs (p - ref)
  have hn : (statesIndices (L.dxy 0) L.n s (p - ref)).2 = none := by
    rw [indices_scalar]
    simp only [hz]
    unfold sIdx
    rw [if_neg (by norm_num)]
    cases hb' : sback (fun _ => 0) 0 s with
    | mk k c => have := hb s 0; rw [hb'] at this; simp only at this; subst this; exact hf _ _ _ rfl
  unfold value
  simp only
  rw [if_neg (by omega), ends_none _ _ _ he hn]

/-! ### From wind speeds and time steps -/

lemma wd_unit (wd : ℝ) : (wd2uv wd 1).1 ^ 2 + (wd2uv wd 1).2 ^ 2 = 1 := by
  simp only [wd2uv, wd2wdvec]
  have := Real.sin_sq_add_cos_sq (wd * Real.pi / 180)
  nlinarith

lemma displacements_regular (uv : List V2) (d : ℤ) (s : ℕ) (hs : s < uv.length) :
    (displacements uv (List.replicate (max (uv.length - 1) 1) d)).getD s (0, 0) = scale d (uv.getD s (0, 0)) := by
  unfold displacements
  split
  · rename_i d' h
    have : d' = d := by
      have : d' ∈ List.replicate (max (uv.length - 1) 1) d := by rw [h]; simp
      exact (List.mem_replicate.1 this).2
    subst this
    simp [List.getD_eq_getElem?_getD, hs]
  · rename_i hne
    have h3 : 3 ≤ uv.length := by
      by_contra hlt
      have : max (uv.length - 1) 1 = 1 := by omega
      exact hne d (by rw [this]; rfl)
    have hm : max (uv.length - 1) 1 = uv.length - 1 := by omega
    rw [hm]
    have hz : (List.zipWith (fun u d => scale d u) uv.dropLast (List.replicate (uv.length - 1) d)).length = uv.length - 1 := by simp
    rcases Nat.lt_or_ge s (uv.length - 1) with h | h
    · rw [List.getD_append _ _ _ _ (by rw [hz]; exact h)]
      simp only [List.getD_eq_getElem?_getD]
      rw [List.getElem?_eq_getElem (by rw [hz]; exact h), List.getElem?_eq_getElem hs]
      simp [List.getElem_zipWith]
    · have hs' : s = uv.length - 1 := by omega
      rw [List.getD_append_right _ _ _ _ (by rw [hz]; exact h), hz, hs']
      simp only [Nat.sub_self, List.getD_cons_zero]
      have e1 : (List.replicate (uv.length - 1) d).getLastD 0 = d := by
        obtain ⟨m, hm'⟩ : ∃ m, uv.length - 1 = m + 1 := ⟨uv.length - 2, by omega⟩
        rw [hm', List.replicate_succ']
        simp
      have e2 : uv.getLastD (0, 0) = uv.getD (uv.length - 1) (0, 0) := by
        rw [List.getLastD_eq_getLast?, List.getLast?_eq_getElem?, List.getD_eq_getElem?_getD]
      rw [e1, e2]

/-- **C56 (steady wind).** For steady wind and a regular time step of `d` seconds, the value at a point that the air reaches `j + θ` steps
after the reference (`0 ≤ θ ≤ 1`) is the series at the reference, interpolated linearly at that many steps before the state. -/
theorem C56_steady (idx : Index) (m : ℝ) (d : ℤ) (hd : d = ⌊m * 60⌋) (hd0 : 0 < d) (z0 : ℝ) (wd ws : ℝ) (hws : 0 < ws)
    (other : String → ℕ → ℕ → ℝ) (dt : List ℤ) (hdt : timeSteps idx (some m) = some dt) (v : String) (hv : v ≠ "U" ∧ v ≠ "V") (be : Bool)
    (ref : V2) (s : ℕ) (hs : s < idx.size) (p : V2) (z : ℝ) (j : ℕ) (hj : j < s) (θ : ℝ) (h0 : 0 ≤ θ) (h1 : θ ≤ 1)
    (hp : downstream (wd2uv wd 1) ref p = ws * d * (j + θ)) (hne : downstream (wd2uv wd 1) ref p ≠ 1e-10) :
    value (precalc idx.size [z0] (fun _ _ => wd) (fun _ _ => ws) other dt) be ref s p z v =
      some ((1 - θ) * other v 0 (s - j) + θ * other v 0 (s - j - 1)) := by
  set L := precalc idx.size [z0] (fun _ _ => wd) (fun _ _ => ws) other dt with hLdef
  have hdR : (0 : ℝ) < ws * d := mul_pos hws (by exact_mod_cast hd0)
  have hdt' : dt = List.replicate (max (idx.size - 1) 1) d := by
    unfold timeSteps at hdt
    simp only at hdt
    rw [← Option.some.inj hdt, hd]
  have hn : L.n = idx.size := rfl
  have hL : Straight L (wd2uv wd 1) (fun _ => ws * d) := by
    refine ⟨wd_unit wd, fun k hk => ⟨hdR, ?_⟩⟩
    have hlen : ((List.range idx.size).map (fun _ => wd2uv wd ws)).length = idx.size := by simp
    have hk' : k < idx.size := hn ▸ hk
    have : L.dxy 0 k = (displacements ((List.range idx.size).map (fun _ => wd2uv wd ws)) dt).getD k (0, 0) := rfl
    rw [this, hdt']
    have := displacements_regular ((List.range idx.size).map (fun _ => wd2uv wd ws)) d k (by rw [hlen]; exact hk')
    rw [hlen] at this
    rw [this]
    have : ((List.range idx.size).map (fun _ => wd2uv wd ws)).getD k (0, 0) = wd2uv wd ws := by
      simp [List.getD_eq_getElem?_getD, hk']
    rw [this]
    simp only [scale, wd2uv, wd2wdvec]
    ext <;> simp only <;> ring
  have hpast : ∀ i, past (fun _ => ws * (d : ℝ)) s i = i * (ws * d) := by intro i; simp [past]
  have hval : ∀ k, L.val v 0 k = other v 0 k := by
    intro k
    have : L.val v 0 k = if v = "U" then (wd2uv wd ws).1 else if v = "V" then (wd2uv wd ws).2 else other v 0 k := rfl
    rw [this, if_neg hv.1, if_neg hv.2]
  rw [C56_downstream L _ _ hL (by simp [L, precalc]) be ref s hs p z v j hj (by rw [hpast, hp]; nlinarith) (by rw [hpast, hp]; push_cast; nlinarith) hne]
  rw [hpast, hp, hval, hval]
  have : (ws * d * (j + θ) - j * (ws * d)) / (ws * d) = θ := by field_simp; ring
  rw [this]
  rfl

lemma diffs_get (t : List ℝ) : ∀ s, s + 1 < t.length → (diffs t).getD s 0 = ⌊t.getD (s + 1) 0 - t.getD s 0⌋ := by
  induction t with
  | nil => intro s h; simp at h
  | cons a t ih =>
      intro s h
      cases t with
      | nil => simp at h
      | cons b l =>
          cases s with
          | zero => simp [diffs]
          | succ s =>
              simp only [diffs, List.getD_cons_succ]
              exact ih s (by simpa using h)

lemma diffs_length (t : List ℝ) : (diffs t).length = t.length - 1 := by
  induction t with
  | nil => rfl
  | cons a t ih =>
      cases t with
      | nil => rfl
      | cons b l => simp only [diffs, List.length_cons] at ih ⊢; omega

lemma displacements_get (uv : List V2) (dt : List ℤ) (hl : dt.length = uv.length - 1) (s : ℕ) (hs : s + 1 < uv.length) :
    (displacements uv dt).getD s (0, 0) = scale (dt.getD s 0) (uv.getD s (0, 0)) := by
  unfold displacements
  split
  · rename_i d
    have : s = 0 := by simp at hl; omega
    subst this
    simp [List.getD_eq_getElem?_getD, show 0 < uv.length by omega]
  · have hz : (List.zipWith (fun u d => scale d u) uv.dropLast dt).length = uv.length - 1 := by simp [hl]
    rw [List.getD_append _ _ _ _ (by rw [hz]; omega)]
    simp only [List.getD_eq_getElem?_getD]
    rw [List.getElem?_eq_getElem (by rw [hz]; omega), List.getElem?_eq_getElem (show s < uv.length by omega),
      List.getElem?_eq_getElem (show s < dt.length by omega)]
    simp [List.getElem_zipWith]

/-- **C56 (displacements).** With time stamps, the air of state `s` (not the last one) moves by its wind vector times the whole seconds
between its stamp and the next one. -/
theorem C56_displacements (t : List ℝ) (n : ℕ) (hn : n = t.length) (heights : List ℝ) (wd ws : ℕ → ℕ → ℝ) (other : String → ℕ → ℕ → ℝ)
    (h s : ℕ) (hs : s + 1 < n) : ∃ dt, timeSteps (.stamps t) none = some dt ∧
    (precalc n heights wd ws other dt).dxy h s =
      ((wd2uv (wd h s) (ws h s)).1 * ⌊t.getD (s + 1) 0 - t.getD s 0⌋, (wd2uv (wd h s) (ws h s)).2 * ⌊t.getD (s + 1) 0 - t.getD s 0⌋) := by
  refine ⟨diffs t, by unfold timeSteps; simp only; rw [if_neg (by omega)], ?_⟩
  have hlen : ((List.range n).map (fun s => wd2uv (wd h s) (ws h s))).length = n := by simp
  have : (precalc n heights wd ws other (diffs t)).dxy h s =
      (displacements ((List.range n).map (fun s => wd2uv (wd h s) (ws h s))) (diffs t)).getD s (0, 0) := rfl
  rw [this, displacements_get _ _ (by rw [diffs_length, hlen, hn]) s (by rw [hlen]; exact hs), diffs_get t s (by omega)]
  have : ((List.range n).map (fun s => wd2uv (wd h s) (ws h s))).getD s (0, 0) = wd2uv (wd h s) (ws h s) := by
    simp [List.getD_eq_getElem?_getD, show s < n by omega]
  rw [this]
  rfl

/-- **C56 (finding).** With irregular time stamps the travel between two states takes the wrong step: in steady wind, air that passed the
reference at state `s - 1` is expected at state `s` where the wind gets in the time from `s` to `s + 1`. -/
theorem C56_irregular_wrong (t : List ℝ) (n : ℕ) (hn : n = t.length) (hpos : ∀ k, k + 1 < n → 1 ≤ t.getD (k + 1) 0 - t.getD k 0) (z0 : ℝ)
    (wd ws : ℝ) (hws : 0 < ws) (other : String → ℕ → ℕ → ℝ) (v : String) (hv : v ≠ "U" ∧ v ≠ "V") (be : Bool) (ref : V2) (s : ℕ) (hs0 : 0 < s)
    (hs : s + 1 < n) (p : V2) (z : ℝ) (hp : downstream (wd2uv wd 1) ref p = ws * ⌊t.getD (s + 1) 0 - t.getD s 0⌋)
    (hne : downstream (wd2uv wd 1) ref p ≠ 1e-10) : ∃ dt, timeSteps (.stamps t) none = some dt ∧
    value (precalc n [z0] (fun _ _ => wd) (fun _ _ => ws) other dt) be ref s p z v = some (other v 0 (s - 1)) := by
  refine ⟨diffs t, by unfold timeSteps; simp only; rw [if_neg (by omega)], ?_⟩
  set L := precalc n [z0] (fun _ _ => wd) (fun _ _ => ws) other (diffs t) with hLdef
  have hpos' : ∀ k, k + 1 < n → (1 : ℤ) ≤ ⌊t.getD (k + 1) 0 - t.getD k 0⌋ := fun k hk => Int.le_floor.2 (by exact_mod_cast hpos k hk)
  have hlast : (1 : ℤ) ≤ (diffs t).getLastD 0 := by
    have hl := diffs_length t
    rw [List.getLastD_eq_getLast?, List.getLast?_eq_getElem?, ← List.getD_eq_getElem?_getD, hl, diffs_get t _ (by omega)]
    exact hpos' _ (by omega)
  have hlen : ((List.range n).map (fun _ => wd2uv wd ws)).length = n := by simp
  let l : ℕ → ℝ := fun k => ws * (if k + 1 < n then (⌊t.getD (k + 1) 0 - t.getD k 0⌋ : ℝ) else ((diffs t).getLastD 0 : ℤ))
  have hdxy : ∀ k < n, L.dxy 0 k = scale (if k + 1 < n then ⌊t.getD (k + 1) 0 - t.getD k 0⌋ else (diffs t).getLastD 0) (wd2uv wd ws) := by
    intro k hk
    have hk1 : ((List.range n).map (fun _ => wd2uv wd ws)).getD k (0, 0) = wd2uv wd ws := by simp [List.getD_eq_getElem?_getD, hk]
    have e : L.dxy 0 k = (displacements ((List.range n).map (fun _ => wd2uv wd ws)) (diffs t)).getD k (0, 0) := rfl
    rw [e]
    split_ifs with h
    · rw [displacements_get _ _ (by rw [diffs_length, hlen, hn]) k (by rw [hlen]; exact h), diffs_get t k (by omega), hk1]
    · have hkn : k = n - 1 := by omega
      have h3 : 3 ≤ n := by omega
      unfold displacements
      split
      · rename_i d hd
        have := diffs_length t
        rw [hd] at this; simp at this; omega
      · have hz : (List.zipWith (fun u d => scale d u) ((List.range n).map (fun _ => wd2uv wd ws)).dropLast (diffs t)).length = n - 1 := by
          simp [diffs_length, ← hn]
        rw [List.getD_append_right _ _ _ _ (by rw [hz]; omega), hz, hkn]
        simp only [Nat.sub_self, List.getD_cons_zero]
        rw [List.getLastD_eq_getLast? (l := (List.range n).map (fun _ => wd2uv wd ws)), List.getLast?_eq_getElem?, ← List.getD_eq_getElem?_getD, hlen,
          ← hkn, hk1]
  have hL : Straight L (wd2uv wd 1) l := by
    refine ⟨wd_unit wd, fun k hk => ⟨?_, ?_⟩⟩
    · simp only [l]
      apply mul_pos hws
      split_ifs with h
      · have := hpos' k h; exact_mod_cast (by omega : (0 : ℤ) < ⌊t.getD (k + 1) 0 - t.getD k 0⌋)
      · exact_mod_cast (by omega : (0 : ℤ) < (diffs t).getLastD 0)
    · rw [hdxy k hk]
      simp only [scale, l, wd2uv, wd2wdvec]
      split_ifs <;> ext <;> simp only <;> ring
  have hls : l s = ws * ⌊t.getD (s + 1) 0 - t.getD s 0⌋ := by simp only [l]; rw [if_pos hs]
  have hpast : past l s (0 + 1) = l s := by simp [past]
  have hlpos : 0 < l s := (hL.2 s (by show s < n; omega)).1
  have hval : ∀ k, L.val v 0 k = other v 0 k := by
    intro k
    have : L.val v 0 k = if v = "U" then (wd2uv wd ws).1 else if v = "V" then (wd2uv wd ws).2 else other v 0 k := rfl
    rw [this, if_neg hv.1, if_neg hv.2]
  rw [C56_downstream L _ l hL (by simp [L, precalc]) be ref s (by show s < n; omega) p z v 0 hs0 (by rw [hp, ← hls]; simp [past]; exact hlpos.le)
    (by rw [hpast, hp, hls]) hne]
  rw [hp, ← hls, hval, hval]
  have : (l s - past l s 0) / l (s - 0) = 1 := by simp [past, hlpos.ne']
  rw [this]
  simp [mix]

/-- **C56 (finding).** Time stamps less than one second apart do not move the air. -/
theorem C56_whole_seconds (t : List ℝ) (h2 : 2 ≤ t.length) (h : ∀ k, k + 1 < t.length → 0 ≤ t.getD (k + 1) 0 - t.getD k 0 ∧ t.getD (k + 1) 0 - t.getD k 0 < 1) :
    ∃ dt, timeSteps (.stamps t) none = some dt ∧ ∀ d ∈ dt, d = 0 := by
  refine ⟨diffs t, by unfold timeSteps; simp only; rw [if_neg (by omega)], fun d hd => ?_⟩
  obtain ⟨k, hk, rfl⟩ := List.getElem_of_mem hd
  have hl := diffs_length t
  have := diffs_get t k (by omega)
  rw [List.getD_eq_getElem?_getD, List.getElem?_eq_getElem hk] at this
  simp only [Option.getD_some] at this
  rw [this, Int.floor_eq_zero_iff]
  exact ⟨(h k (by omega)).1, (h k (by omega)).2⟩

/-! ### Heights, wind and output variables -/

/-- the flow at one of the heights alone -/
def oneHeight (L : Lines) (i : ℕ) : Lines := { n := L.n, heights := [L.heights.getD i 0], dxy := fun _ => L.dxy i, val := fun w _ => L.val w i }

/-- **C56 (heights).** Between two neighbouring heights every stored variable is linear between its values at the two heights. -/
theorem C56_heights (L : Lines) (ref : V2) (s : ℕ) (hsort : L.heights.Pairwise (· < ·)) (p : V2) (z : ℝ) (v : String) (i : ℕ) (hi : i + 1 < L.heights.length)
    (hlo : L.heights.getD i 0 ≤ z) (hhi : z ≤ L.heights.getD (i + 1) 0) (be : Bool) :
    ∃ a b, value (oneHeight L i) be ref s p z v = some a ∧ value (oneHeight L (i + 1)) be ref s p z v = some b ∧
      value L be ref s p z v = some (a + (z - L.heights.getD i 0) / (L.heights.getD (i + 1) 0 - L.heights.getD i 0) * (b - a)) := by
  refine ⟨interpTime L.n (L.val v i) (statesIndices (L.dxy i) L.n s (p - ref)),
    interpTime L.n (L.val v (i + 1)) (statesIndices (L.dxy (i + 1)) L.n s (p - ref)), ?_, ?_, ?_⟩
  · unfold value oneHeight; simp
  · unfold value oneHeight; simp
  · have hin : inside L.heights z = true := by
      have h1 : L.heights.head? = some (L.heights.getD 0 0) := by
        cases e : L.heights with
        | nil => rw [e] at hi; simp at hi
        | cons a l => simp
      have h2 : L.heights.getLast? = some (L.heights.getD (L.heights.length - 1) 0) := by
        rw [List.getLast?_eq_getElem?, List.getD_eq_getElem?_getD, List.getElem?_eq_getElem (show L.heights.length - 1 < L.heights.length by omega)]
        rfl
      unfold inside
      rw [h1, h2]
      have a1 := getD_le L.heights hsort 0 i (by omega) (by omega)
      have a2 := getD_le L.heights hsort (i + 1) (L.heights.length - 1) (by omega) (by omega)
      simp only [Bool.and_eq_true, decide_eq_true_eq]
      exact ⟨by linarith, by linarith⟩
    unfold value
    simp only
    rw [if_pos (by omega), if_neg (by rw [hin]; simp),
      along_cell L.heights hsort z i (i + 1) _ (Or.inr ⟨rfl, hi, hlo, hhi, rfl⟩)]
    congr 1
    unfold mix
    ring

/-- **C56 (out of bounds).** Points outside of several heights are an error (by default). -/
theorem C56_outside (L : Lines) (ref : V2) (ovars : List String) (i0 i : ℕ) (p : V2) (z : ℝ) (a b : ℝ) (ha : a ∈ L.heights.head?) (hb : b ∈ L.heights.getLast?)
    (h2 : 1 < L.heights.length) (hz : z < a ∨ b < z) : OnePoint.calculate L true ref ovars i0 i p z = none := by
  have hin : inside L.heights z = false := by
    unfold inside
    rw [Option.mem_def.1 ha, Option.mem_def.1 hb]
    simp only [Bool.and_eq_false_iff, decide_eq_false_iff_not, not_le]
    exact hz
  have : ∀ v, value L true ref (i0 + i) p z v = none := by
    intro v
    unfold value
    simp only
    rw [if_pos h2, if_pos (by simp [hin])]
  unfold OnePoint.calculate
  rw [this]

lemma results_keep (f : String → ℝ) (wd ws : ℝ) : ∀ (vs : List String) (res : List (String × ℝ)), vs.Nodup →
    "WD" ∈ res.map Prod.fst → "WS" ∈ res.map Prod.fst → ∀ e : String × ℝ,
    e ∈ results f wd ws res vs ↔ (e ∈ res ∧ ¬ (e.1 ∈ vs ∧ e.1 ≠ "WS" ∧ e.1 ≠ "WD")) ∨ (e.1 ∈ vs ∧ e.1 ≠ "WS" ∧ e.1 ≠ "WD" ∧ e.2 = f e.1) := by
  intro vs
  induction vs with
  | nil => intro res _ _ _ e; simp [results]
  | cons v vs ih =>
      intro res hnd h1 h2 e
      rw [List.nodup_cons] at hnd
      unfold results
      by_cases hv : v ≠ "WS" ∧ v ≠ "WD"
      · rw [if_pos hv, ih _ hnd.2]
        · constructor
          · rintro (⟨h, h'⟩ | ⟨h, h', h2, h3⟩)
            · rcases List.mem_append.1 h with h | h
              · have h := List.mem_filter.1 h
                have hne : e.1 ≠ v := by simpa using h.2
                refine Or.inl ⟨h.1, ?_⟩
                rintro ⟨hm, hm2⟩
                rcases List.mem_cons.1 hm with hm | hm
                · exact hne hm
                · exact h' ⟨hm, hm2⟩
              · simp at h; subst h; exact Or.inr ⟨by simp, hv.1, hv.2, rfl⟩
            · exact Or.inr ⟨List.mem_cons_of_mem _ h, h', h2, h3⟩
          · rintro (⟨h, h'⟩ | ⟨h, h', h2, h3⟩)
            · have hne : e.1 ≠ v := fun hh => h' ⟨by rw [hh]; simp, by rw [hh]; exact hv⟩
              exact Or.inl ⟨List.mem_append_left _ (List.mem_filter.2 ⟨h, by simpa using hne⟩), fun hm => h' ⟨List.mem_cons_of_mem _ hm.1, hm.2⟩⟩
            · rcases List.mem_cons.1 h with h | h
              · refine Or.inl ⟨List.mem_append_right _ ?_, fun hm => hnd.1 (h ▸ hm.1)⟩
                have : e = (v, f v) := Prod.ext h (by rw [h3, h])
                rw [this]; simp
              · exact Or.inr ⟨h, h', h2, h3⟩
        · obtain ⟨x, hx, hx2⟩ := List.mem_map.1 h1
          simp only [List.map_append, List.mem_append, List.mem_map]
          exact Or.inl ⟨x, List.mem_filter.2 ⟨hx, by simp only [hx2]; exact decide_eq_true (fun h => hv.2 h.symm)⟩, hx2⟩
        · obtain ⟨x, hx, hx2⟩ := List.mem_map.1 h2
          simp only [List.map_append, List.mem_append, List.mem_map]
          exact Or.inl ⟨x, List.mem_filter.2 ⟨hx, by simp only [hx2]; exact decide_eq_true (fun h => hv.1 h.symm)⟩, hx2⟩
      · rw [if_neg hv]
        have hvm : v = "WS" ∨ v = "WD" := by
          by_contra hn; exact hv ⟨fun h => hn (Or.inl h), fun h => hn (Or.inr h)⟩
        have hin : v ∈ res.map Prod.fst := by rcases hvm with rfl | rfl <;> assumption
        rw [if_neg (fun h => h hin), ih _ hnd.2 h1 h2]
        have hsame : (e.1 ∈ vs ∧ e.1 ≠ "WS" ∧ e.1 ≠ "WD") ↔ (e.1 ∈ v :: vs ∧ e.1 ≠ "WS" ∧ e.1 ≠ "WD") := by
          constructor
          · rintro ⟨h, h'⟩; exact ⟨List.mem_cons_of_mem _ h, h'⟩
          · rintro ⟨h, h'⟩
            rcases List.mem_cons.1 h with h | h
            · rw [h] at h'; exact absurd h' hv
            · exact ⟨h, h'⟩
        constructor
        · rintro (⟨h, h'⟩ | ⟨h, h', h2, h3⟩)
          · exact Or.inl ⟨h, fun x => h' (hsame.2 x)⟩
          · exact Or.inr ⟨List.mem_cons_of_mem _ h, h', h2, h3⟩
        · rintro (⟨h, h'⟩ | ⟨h, h', h2, h3⟩)
          · exact Or.inl ⟨h, fun x => h' (hsame.1 x)⟩
          · exact Or.inr ⟨(hsame.2 ⟨h, h', h2⟩).1, h', h2, h3⟩

lemma results_before (f : String → ℝ) (wd ws : ℝ) (w : String) (hw : w = "WS" ∨ w = "WD") (post : List String) : ∀ (pre : List String) (res : List (String × ℝ)),
    (∀ v ∈ pre, v ≠ "WS" ∧ v ≠ "WD") → (∀ e ∈ res, e.1 ≠ "WS" ∧ e.1 ≠ "WD") →
    results f wd ws res (pre ++ w :: post) = results f wd ws [("WD", wd), ("WS", ws)] post := by
  intro pre
  induction pre with
  | nil =>
      intro res _ hres
      simp only [List.nil_append]
      conv_lhs => unfold results
      rw [if_neg (by rcases hw with rfl | rfl <;> simp), if_pos]
      intro hm
      obtain ⟨e, he, he2⟩ := List.mem_map.1 hm
      have := hres e he
      rw [he2] at this
      rcases hw with rfl | rfl
      · exact this.1 rfl
      · exact this.2 rfl
  | cons v pre ih =>
      intro res hpre hres
      simp only [List.cons_append]
      conv_lhs => unfold results
      rw [if_pos (hpre v (by simp)), ih _ (fun x hx => hpre x (by simp [hx]))]
      intro e he
      rcases List.mem_append.1 he with h | h
      · exact hres e (List.mem_filter.1 h).1
      · simp at h; subst h; exact hpre v (by simp)

/-- **C56 (results), partial.** Whatever the history: if a wind variable comes first among the output variables (which do not repeat), the
results are exactly the wind speed and direction of the interpolated wind vector, and the interpolated other variables. Missing: other
orders, see `C56_lost_variables`. -/
theorem C56_results_partial (L : Lines) (be : Bool) (ref : V2) (w : String) (hw : w = "WS" ∨ w = "WD") (post : List String) (hnd : (w :: post).Nodup)
    (i0 i : ℕ) (p : V2) (z : ℝ) (u1 u2 : ℝ) (hu : value L be ref (i0 + i) p z "U" = some u1) (hv : value L be ref (i0 + i) p z "V" = some u2) :
    ∃ res wd ws, OnePoint.calculate L be ref (w :: post) i0 i p z = some res ∧ wd2uv wd ws = (u1, u2) ∧ 0 ≤ ws ∧ 0 ≤ wd ∧ wd < 360 ∧
    ∀ e : String × ℝ, e ∈ res ↔ e = ("WD", wd) ∨ e = ("WS", ws) ∨
      (e.1 ∈ w :: post ∧ e.1 ≠ "WS" ∧ e.1 ≠ "WD" ∧ value L be ref (i0 + i) p z e.1 = some e.2) := by
  have hsome : ∀ v, ∃ r, value L be ref (i0 + i) p z v = some r := by
    intro v
    unfold value at hu ⊢
    simp only at hu ⊢
    split_ifs at hu ⊢
    · exact ⟨_, rfl⟩
    · exact ⟨_, rfl⟩
  refine ⟨results (fun v => (value L be ref (i0 + i) p z v).getD 0) (uv2wd (u1, u2)) (nrm (u1, u2)) [] (w :: post), uv2wd (u1, u2), nrm (u1, u2), ?_,
    Foxes.Props.WindDir.C31_vector_round_trip _, Real.sqrt_nonneg _, (Foxes.Props.WindDir.C31_range _).1, (Foxes.Props.WindDir.C31_range _).2, ?_⟩
  · unfold OnePoint.calculate
    rw [hu, hv]
  · intro e
    have hb := results_before (fun v => (value L be ref (i0 + i) p z v).getD 0) (uv2wd (u1, u2)) (nrm (u1, u2)) w hw post [] [] (by simp) (by simp)
    rw [List.nil_append] at hb
    rw [hb, results_keep _ _ _ post _ (List.nodup_cons.1 hnd).2 (by simp) (by simp)]
    simp only [List.mem_cons, List.not_mem_nil, or_false]
    constructor
    · rintro (⟨h | h, _⟩ | ⟨h1, h2, h3, h4⟩)
      · exact Or.inl h
      · exact Or.inr (Or.inl h)
      · obtain ⟨r, hr⟩ := hsome e.1
        refine Or.inr (Or.inr ⟨Or.inr h1, h2, h3, ?_⟩)
        rw [h4, hr]; rfl
    · rintro (h | h | ⟨h1, h2, h3, h4⟩)
      · subst h; exact Or.inl ⟨Or.inl rfl, by simp⟩
      · subst h; exact Or.inl ⟨Or.inr rfl, by simp⟩
      · refine Or.inr ⟨?_, h2, h3, by rw [h4]; rfl⟩
        rcases h1 with h1 | h1
        · rw [h1] at h2 h3; rcases hw with hh | hh <;> contradiction
        · exact h1

/-- **C56 (wind).** At the line through the reference across the wind, and everywhere if the wind is the same in all states and heights, the wind
vector is that of the base states. -/
theorem C56_wind (n : ℕ) (heights : List ℝ) (hsort : heights.Pairwise (· < ·)) (hne : heights ≠ []) (wd ws : ℕ → ℕ → ℝ) (other : String → ℕ → ℕ → ℝ)
    (dt : List ℤ) (ref : V2) (w : String) (hw : w = "WS" ∨ w = "WD") (post : List String) (hnd : (w :: post).Nodup) (i0 i : ℕ) (hs : i0 + i < n) (p : V2) (z : ℝ)
    (h : (∃ a b, heights.length ≤ 1 ∨ (heights.head? = some a ∧ heights.getLast? = some b ∧ a ≤ z ∧ z ≤ b)) ∧
        (∃ wd0 ws0, ∀ h s, wd h s = wd0 ∧ ws h s = ws0) ∨
      heights.length ≤ 1 ∧ ∃ e l, Straight (precalc n heights wd ws other dt) e l ∧ downstream e ref p = 0) :
    ∃ res wd' ws', OnePoint.calculate (precalc n heights wd ws other dt) true ref (w :: post) i0 i p z = some res ∧ ("WD", wd') ∈ res ∧ ("WS", ws') ∈ res ∧
      wd2uv wd' ws' = wd2uv (wd 0 (i0 + i)) (ws 0 (i0 + i)) := by
  have key : value (precalc n heights wd ws other dt) true ref (i0 + i) p z "U" = some (wd2uv (wd 0 (i0 + i)) (ws 0 (i0 + i))).1 ∧
      value (precalc n heights wd ws other dt) true ref (i0 + i) p z "V" = some (wd2uv (wd 0 (i0 + i)) (ws 0 (i0 + i))).2 := by
    rcases h with ⟨⟨a, b, hb⟩, wd0, ws0, hc⟩ | ⟨h1, e, l, hL, hd⟩
    · have hex : ∀ v, ∃ r, value (precalc n heights wd ws other dt) true ref (i0 + i) p z v = some r := by
        intro v
        unfold value
        simp only
        split_ifs with g1 g2
        · exfalso
          rcases hb with hb | ⟨b1, b2, b3, b4⟩
          · have : (precalc n heights wd ws other dt).heights = heights := rfl
            rw [this] at g1; omega
          · have : inside heights z = true := by
              unfold inside; rw [b1, b2]; simp [b3, b4]
            have g2' : inside heights z = false := g2.2
            rw [this] at g2'; simp at g2'
        · exact ⟨_, rfl⟩
        · exact ⟨_, rfl⟩
      obtain ⟨u, hu⟩ := hex "U"
      obtain ⟨v, hv⟩ := hex "V"
      rw [hu, hv, C56_uniform _ ref _ hs hsort hne p z "U" u (wd2uv wd0 ws0).1 hu (fun h _ k _ => by
        simp only [precalc, (hc h k).1, (hc h k).2]; rfl),
        C56_uniform _ ref _ hs hsort hne p z "V" v (wd2uv wd0 ws0).2 hv (fun h _ k _ => by
        simp only [precalc, (hc h k).1, (hc h k).2]; rfl), (hc 0 (i0 + i)).1, (hc 0 (i0 + i)).2]
      exact ⟨rfl, rfl⟩
    · rw [C56_at_reference _ e l hL h1 true ref (i0 + i) hs p z "U" hd, C56_at_reference _ e l hL h1 true ref (i0 + i) hs p z "V" hd]
      simp [precalc]
  obtain ⟨res, wd', ws', h1, h2, _, _, _, h3⟩ := C56_results_partial _ true ref w hw post hnd i0 i p z _ _ key.1 key.2
  exact ⟨res, wd', ws', h1, (h3 _).2 (Or.inl rfl), (h3 _).2 (Or.inr (Or.inl rfl)), by rw [h2]⟩

/-- **C56 (finding).** Output variables listed before the first wind variable are missing in the results. -/
theorem C56_lost_variables (L : Lines) (be : Bool) (ref : V2) (w : String) (hw : w = "WS" ∨ w = "WD") (pre post : List String) (hnd : (pre ++ w :: post).Nodup)
    (hpre : ∀ v ∈ pre, v ≠ "WS" ∧ v ≠ "WD") (i0 i : ℕ) (p : V2) (z : ℝ) (res : List (String × ℝ))
    (h : OnePoint.calculate L be ref (pre ++ w :: post) i0 i p z = some res) : ∀ v ∈ pre, v ∉ res.map Prod.fst := by
  intro v hv hm
  obtain ⟨e, he, he2⟩ := List.mem_map.1 hm
  unfold OnePoint.calculate at h
  split at h
  · have h := Option.some.inj h
    subst h
    rw [results_before _ _ _ w hw post pre [] hpre (by simp)] at he
    have hnd' := List.nodup_append.1 hnd
    rw [results_keep _ _ _ post _ (List.nodup_cons.1 hnd'.2.1).2 (by simp) (by simp)] at he
    have hvw := hpre v hv
    rcases he with ⟨h, _⟩ | ⟨h, _, _, _⟩
    · simp only [List.mem_cons, List.not_mem_nil, or_false] at h
      rcases h with h | h <;> (rw [h] at he2; simp only at he2)
      · exact hvw.2 he2.symm
      · exact hvw.1 he2.symm
    · rw [he2] at h
      exact hnd'.2.2 v hv v (List.mem_cons_of_mem _ h) rfl
  · simp at h

/-! ### Weights -/

lemma weightLoop_rep (w : List ℝ) : ∀ n, weightLoop (some w) (List.replicate n w) =
    if n = 0 ∨ ∀ a ∈ w, ∀ b ∈ w, a = b then some (some w) else none := by
  intro n
  induction n with
  | zero => simp [weightLoop]
  | succ n ih =>
      rw [List.replicate_succ]
      unfold weightLoop
      by_cases h : ∀ a ∈ w, ∀ b ∈ w, a = b
      · rw [if_pos h, ih, if_pos (Or.inr h), if_pos (Or.inr h)]
      · rw [if_neg h, if_neg (by rintro (h' | h'); omega; exact h h')]

/-- **C56 (weights), partial.** Without given weights all states have the same weight, and the sum is one; given weights of states with
heights are used unchanged if there is one height. Missing: see `C56_table_weights_raise` and `C56_unequal_weights_raise`. -/
theorem C56_weights_partial (n nh : ℕ) (hn : 0 < n) (hh : 0 < nh) (w : List ℝ) :
    (∀ b, ∃ l, weights b none n nh = some (some l) ∧ l.length = n ∧ l.sum = 1 ∧ ∀ a ∈ l, a = 1 / (n : ℝ)) ∧
    weights .multiHeight (some w) n 1 = some (some w) := by
  constructor
  · intro b
    obtain ⟨m, rfl⟩ : ∃ m, nh = m + 1 := ⟨nh - 1, by omega⟩
    have hr : ∀ a ∈ List.replicate n (1 / (n : ℝ)), a = 1 / (n : ℝ) := fun a ha => (List.mem_replicate.1 ha).2
    refine ⟨List.replicate n (1 / (n : ℝ)), ?_, by simp, ?_, hr⟩
    · unfold weights
      rw [if_pos (by cases b <;> rfl), List.replicate_succ]
      simp only [Option.getD_none]
      unfold weightLoop
      rw [weightLoop_rep, if_pos (Or.inr (fun a ha b hb => by rw [hr a ha, hr b hb]))]
    · have : (n : ℝ) ≠ 0 := by exact_mod_cast hn.ne'
      simp [this]
  · unfold weights
    rw [if_pos (show mdataOk .multiHeight (some w).isSome = true from rfl)]
    simp [weightLoop]

/-- **C56 (finding).** Weights in a table without heights raise (the dimension name is read letter by letter). -/
theorem C56_table_weights_raise (w : List ℝ) (n nh : ℕ) : weights .table (some w) n nh = none := by
  simp [weights, mdataOk]

/-- **C56 (finding).** With several heights, weights that are not all equal raise (all pairs of states are compared). -/
theorem C56_unequal_weights_raise (w : List ℝ) (n nh : ℕ) (hh : 2 ≤ nh) (a b : ℝ) (ha : a ∈ w) (hb : b ∈ w) (hab : a ≠ b) :
    weights .multiHeight (some w) n nh = none := by
  obtain ⟨m, rfl⟩ : ∃ m, nh = m + 2 := ⟨nh - 2, by omega⟩
  unfold weights
  rw [if_pos (show mdataOk .multiHeight (some w).isSome = true from rfl), List.replicate_succ]
  simp only [Option.getD_some]
  unfold weightLoop
  rw [weightLoop_rep, if_neg]
  rintro (h | h)
  · omega
  · exact hab (h a ha b hb)

/-- **C56 (choice of heights).** Heights given by the user come first, then those of the base states, then the height of the reference. -/
theorem C56_choose (tl base : Option (List ℝ)) (refz : Option ℝ) (l : List ℝ) :
    chooseHeights tl base refz = some l ↔ tl = some l ∨ (tl = none ∧ base = some l) ∨ (tl = none ∧ base = none ∧ ∃ z, refz = some z ∧ l = [z]) := by
  cases tl <;> cases base <;> cases refz <;> simp [chooseHeights, eq_comm]

/-! ### Examples -/

/-- a steady west wind of 10 m/s, one state per minute, temperature rising by one per state -/
noncomputable def demo : Lines :=
  precalc 5 [100] (fun _ _ => 270) (fun _ _ => 10) (fun _ _ s => (s : ℝ)) (List.replicate 4 60)

lemma west : wd2uv 270 1 = (1, 0) := by
  have h : (270 : ℝ) * Real.pi / 180 = Real.pi + Real.pi / 2 := by ring
  unfold wd2uv wd2wdvec
  rw [h]
  ext <;> simp [Real.sin_add, Real.cos_add]

/-- 900 m downstream the air passed the reference 1.5 minutes before: the value of state 3 is that at time 1.5 -/
example : value demo true (0, 0) 3 (900, -50) 100 "T" = some 1.5 := by
  have := C56_steady (.other 5) 1 60 (by norm_num) (by norm_num) 100 270 10 (by norm_num) (fun _ _ s => (s : ℝ)) (List.replicate 4 60)
    (by simp [timeSteps, Index.size]) "T" ⟨by decide, by decide⟩ true (0, 0) 3 (by decide) (900, -50) 100 1 (by norm_num) (1 / 2) (by norm_num) (by norm_num)
    (by rw [west]; simp [downstream]; norm_num) (by rw [west]; simp [downstream]; norm_num)
  unfold demo
  have e : (Index.other 5).size = 5 := rfl
  rw [e] at this
  rw [this]
  norm_num

lemma demo_straight : Straight demo (1, 0) (fun _ => 600) := by
  refine ⟨by norm_num, fun s hs => ⟨by norm_num, ?_⟩⟩
  have hs : s < 5 := hs
  have e : demo.dxy 0 s = (displacements ((List.range 5).map (fun _ => wd2uv 270 10)) (List.replicate (max (5 - 1) 1) 60)).getD s (0, 0) := rfl
  have := displacements_regular ((List.range 5).map (fun _ => wd2uv 270 10)) 60 s (by simpa using hs)
  simp only [List.length_map, List.length_range] at this
  rw [e, this]
  have : ((List.range 5).map (fun _ => wd2uv 270 10)).getD s (0, 0) = wd2uv 270 10 := by
    rw [List.getD_eq_getElem?_getD, List.getElem?_map, List.getElem?_range hs]; rfl
  rw [this]
  have h : wd2uv 270 10 = (10, 0) := by
    have h1 := west
    simp only [wd2uv, wd2wdvec, Prod.mk.injEq] at h1 ⊢
    constructor <;> linarith [h1.1, h1.2]
  rw [h]
  simp [scale]; norm_num

/-- 300 m upstream: the air arrives half a step later -/
example : value demo true (0, 0) 3 (-300, 0) 100 "T" = some 3.5 := by
  rw [C56_upstream_partial demo (1, 0) _ demo_straight (by simp [demo, precalc]) true (0, 0) 3 (by decide) (-300, 0) 100 "T" 0 (by decide)
    (by simp [future, downstream]) (by simp [future, downstream]; norm_num)]
  simp [demo, precalc, mix, future, downstream]; norm_num

/-- 600 m upstream: the value should be 4, but is 3 -/
example : value demo true (0, 0) 3 (-600, 0) 100 "T" = some 3 := by
  rw [C56_upstream_steps_wrong demo (1, 0) _ demo_straight (by simp [demo, precalc]) true (0, 0) 3 (by decide) (-600, 0) 100 "T" 0 (by decide)
    (by simp [future, downstream])]
  simp [demo, precalc]

/-- 1200 m downstream at state 0: the value is that of the last state -/
example : value demo true (0, 0) 0 (1200, 0) 100 "T" = some 4 := by
  rw [C56_before_data_wrong demo (1, 0) _ demo_straight (by simp [demo, precalc]) true (0, 0) 0 (by decide) (1200, 0) 100 "T"
    (by simp [past, downstream]; norm_num) (by simp [downstream]; norm_num)]
  simp [demo, precalc]

/-- 300 m downstream at state 0: the mean of the first and the last state -/
example : value demo true (0, 0) 0 (300, 0) 100 "T" = some 2 := by
  rw [C56_first_step_wrong demo (1, 0) _ demo_straight (by simp [demo, precalc]) true (0, 0) 0 (by decide) (300, 0) 100 "T"
    (by simp [past, downstream]) (by simp [past, downstream]; norm_num) (by simp [downstream]; norm_num)]
  simp [demo, precalc, mix, past, downstream]; norm_num

/-- upstream beyond the data -/
example : value demo true (0, 0) 3 (-5000, 0) 100 "T" = some 4 := by
  rw [C56_after_data demo (1, 0) _ demo_straight (by simp [demo, precalc]) true (0, 0) 3 (by decide) (-5000, 0) 100 "T"
    (by simp [future, downstream, demo, precalc]; norm_num)]
  simp [demo, precalc]

/-- irregular stamps: at state 2 (time 1200 s), the air that passed the reference at state 1 (time 600 s) with 10 m/s is 6 km downstream,
but the value of state 1 is found 36 km downstream -/
example : ∃ dt, timeSteps (.stamps [0, 600, 1200, 4800]) none = some dt ∧
    value (precalc 4 [100] (fun _ _ => 270) (fun _ _ => 10) (fun _ _ s => (s : ℝ)) dt) true (0, 0) 2 (36000, 0) 100 "T" = some 1 := by
  have := C56_irregular_wrong [0, 600, 1200, 4800] 4 rfl (by
      intro k hk
      have : k = 0 ∨ k = 1 ∨ k = 2 := by omega
      rcases this with rfl | rfl | rfl <;> simp <;> norm_num)
    100 270 10 (by norm_num) (fun _ _ s => (s : ℝ)) "T" ⟨by decide, by decide⟩ true (0, 0) 2 (by norm_num) (by norm_num) (36000, 0) 100
    (by
      rw [west]
      have : (⌊([0, 600, 1200, 4800] : List ℝ).getD 3 0 - ([0, 600, 1200, 4800] : List ℝ).getD 2 0⌋ : ℤ) = 3600 := by
        simp
      rw [this]; simp [downstream]; norm_num)
    (by rw [west]; simp [downstream]; norm_num)
  obtain ⟨dt, h1, h2⟩ := this
  exact ⟨dt, h1, by rw [h2]; norm_num⟩

/-- the results of the demo are complete if the wind comes first, and miss the temperature otherwise -/
example : (∃ res, OnePoint.calculate demo true (0, 0) ["WS", "WD", "T"] 2 1 (900, -50) 100 = some res ∧ ("T", (1.5 : ℝ)) ∈ res) ∧
    ∃ res, OnePoint.calculate demo true (0, 0) ["T", "WS", "WD"] 2 1 (900, -50) 100 = some res ∧ "T" ∉ res.map Prod.fst := by
  have hv : ∀ v, value demo true (0, 0) 3 (900, -50) 100 v =
      some (mix ((downstream (1, 0) (0, 0) (900, -50) - past (fun _ => 600) 3 1) / 600) (demo.val v 0 2) (demo.val v 0 1)) := fun v =>
    C56_downstream demo (1, 0) _ demo_straight (by simp [demo, precalc]) true (0, 0) 3 (by decide) (900, -50) 100 v 1 (by norm_num)
      (by simp [past, downstream]; norm_num) (by simp [past, downstream]; norm_num) (by simp [downstream]; norm_num)
  have ht : value demo true (0, 0) 3 (900, -50) 100 "T" = some 1.5 := by
    rw [hv]; simp [demo, precalc, mix, past, downstream]; norm_num
  constructor
  · obtain ⟨res, wd, ws, h1, _, _, _, _, h2⟩ := C56_results_partial demo true (0, 0) "WS" (Or.inl rfl) ["WD", "T"] (by decide) 2 1 (900, -50) 100 _ _ (hv "U") (hv "V")
    exact ⟨res, h1, (h2 _).2 (Or.inr (Or.inr ⟨by simp, by simp, by simp, ht⟩))⟩
  · have : ∃ res, OnePoint.calculate demo true (0, 0) ["T", "WS", "WD"] 2 1 (900, -50) 100 = some res := by
      unfold OnePoint.calculate
      rw [hv "U", hv "V"]
      exact ⟨_, rfl⟩
    obtain ⟨res, hr⟩ := this
    exact ⟨res, hr, C56_lost_variables demo true (0, 0) "WS" (Or.inl rfl) ["T"] ["WD"] (by decide) (by simp) 2 1 (900, -50) 100 res hr "T" (by simp)⟩

end Foxes.Props.OnePoint
