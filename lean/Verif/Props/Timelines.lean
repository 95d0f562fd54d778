import Verif.Model.Timelines
import Verif.Props.OnePoint
import Verif.Props.Frames
import Mathlib.Tactic.Ring
import Mathlib.Tactic.Linarith
import Mathlib.Algebra.Order.Floor.Ring
/-
C57: the wake frame Timelines traces the air at a point back in time to the turbine that it passed.
-/
namespace Foxes.Props.Timelines
open Foxes.Timelines Foxes.OnePoint Foxes.WindDir Foxes.Props.OnePoint
open Foxes.Frames (V3)

/-! ## Specification -/

/-- where the air that is at `p` (relative to the turbine) in state `s` was `j` states before -/
noncomputable def pos (dxy : ℕ → V2) (s : ℕ) (p : V2) (j : ℕ) : V2 := p - ∑ i ∈ Finset.range j, dxy (s - 1 - i)

/-- the way it made since then -/
noncomputable def len (dxy : ℕ → V2) (s j : ℕ) : ℝ := ∑ i ∈ Finset.range j, nrm (dxy (s - 1 - i))

/-- the search goes back `j` states: not before the first state, and not further once the maximal length is exceeded -/
def Reached (dxy : ℕ → V2) (maxLen : ℝ) (s j : ℕ) : Prop := j ≤ s ∧ ∀ i < j, len dxy s i < maxLen

/-- `j` states before, the air was closer to the turbine than at all later times, and within one time step of passing it -/
def Good (dxy : ℕ → V2) (s : ℕ) (p : V2) (j : ℕ) : Prop :=
  (∀ i < j, nrm (pos dxy s p j) ≤ nrm (pos dxy s p i)) ∧ |dot (pos dxy s p j) (unit (dxy (s - j)))| < nrm (dxy (s - j))

/-- the coordinates if the air passed the turbine `j` states before: along and across the wind of then, plus the way made since then -/
noncomputable def out (dxy : ℕ → V2) (s : ℕ) (p : V2) (j : ℕ) : ℝ × ℝ × ℕ :=
  (dot (pos dxy s p j) (unit (dxy (s - j))) + len dxy s j, dot (pos dxy s p j) (perp (unit (dxy (s - j)))), s - j)

/-! ## Helpers -/

structure Inv (dxy : ℕ → V2) (s : ℕ) (p : V2) (j : ℕ) (t : Trace) : Prop where
  hp : t.p = pos dxy s p j
  hl : t.l = len dxy s j
  hsi : t.si = s - j
  hd : ∃ m, t.d = some m ∧ (∀ i ≤ j, m ≤ nrm (pos dxy s p i)) ∧ ∃ i ≤ j, m = nrm (pos dxy s p i)
  hr : (t.res = none ∧ ∀ i ≤ j, ¬ Good dxy s p i) ∨
    ∃ i ≤ j, Good dxy s p i ∧ (∀ i' ≤ j, Good dxy s p i' → i' ≤ i) ∧ t.res = some (out dxy s p i)

lemma inv_zero (dxy : ℕ → V2) (s : ℕ) (p : V2) :
    Inv dxy s p 0 (update dxy { p := p, l := 0, d := none, si := s, res := none }) := by
  have hp0 : pos dxy s p 0 = p := by simp [pos]
  have hl0 : len dxy s 0 = 0 := by simp [len]
  have hg : Good dxy s p 0 ↔ (-nrm (dxy s) < dot p (unit (dxy s)) ∧ dot p (unit (dxy s)) < nrm (dxy s)) := by
    simp only [Good, hp0, Nat.sub_zero, abs_lt]
    constructor
    · exact fun h => h.2
    · exact fun h => ⟨fun i hi => absurd hi (Nat.not_lt_zero _), h⟩
  by_cases h : -nrm (dxy s) < dot p (unit (dxy s)) ∧ dot p (unit (dxy s)) < nrm (dxy s)
  · have e : update dxy { p := p, l := 0, d := none, si := s, res := none } =
        { p := p, l := 0, d := some (nrm p), si := s, res := some (dot p (unit (dxy s)) + 0, dot p (perp (unit (dxy s))), s) } := by
      simp only [update, closer, if_true, if_pos h]
    rw [e]
    refine ⟨hp0.symm, hl0.symm, rfl, ⟨_, rfl, ?_, 0, le_refl _, by rw [hp0]⟩, Or.inr ⟨0, le_refl _, hg.2 h, fun i hi _ => hi, ?_⟩⟩
    · intro i hi; rw [Nat.le_zero.1 hi, hp0]
    · simp [out, hp0, hl0]
  · have e : update dxy { p := p, l := 0, d := none, si := s, res := none } =
        { p := p, l := 0, d := some (nrm p), si := s, res := none } := by
      simp only [update, closer, if_true, if_neg h]
    rw [e]
    refine ⟨hp0.symm, hl0.symm, rfl, ⟨_, rfl, ?_, 0, le_refl _, by rw [hp0]⟩, Or.inl ⟨rfl, ?_⟩⟩
    · intro i hi; rw [Nat.le_zero.1 hi, hp0]
    · intro i hi; rw [Nat.le_zero.1 hi, hg]; exact h

lemma inv_succ (dxy : ℕ → V2) (s : ℕ) (p : V2) (j k : ℕ) (hk : k + 1 = s - j) (t : Trace) (h : Inv dxy s p j t) :
    Inv dxy s p (j + 1) (update dxy { t with si := k, p := t.p - dxy k, l := t.l + nrm (dxy k) }) := by
  obtain ⟨hp, hl, hsi, ⟨m, hm, hmin, i0, hi0, hat⟩, hr⟩ := h
  have ek : s - 1 - j = k := by omega
  have ek' : s - (j + 1) = k := by omega
  have hp1 : pos dxy s p (j + 1) = t.p - dxy k := by
    rw [hp, pos, pos, Finset.sum_range_succ, ek]; abel
  have hl1 : len dxy s (j + 1) = t.l + nrm (dxy k) := by rw [hl, len, len, Finset.sum_range_succ, ek]
  have hg : Good dxy s p (j + 1) ↔ nrm (t.p - dxy k) ≤ m ∧
      (-nrm (dxy k) < dot (t.p - dxy k) (unit (dxy k)) ∧ dot (t.p - dxy k) (unit (dxy k)) < nrm (dxy k)) := by
    simp only [Good, ek', abs_lt]
    constructor
    · rintro ⟨h1, h2⟩
      rw [hp1] at h1 h2
      exact ⟨hat ▸ h1 i0 (by omega), h2⟩
    · rintro ⟨h1, h2⟩
      refine ⟨fun i hi => ?_, by rw [hp1]; exact h2⟩
      rw [hp1]; exact h1.trans (hmin i (by omega))
  by_cases hc : nrm (t.p - dxy k) ≤ m
  · have hd' : ∀ i ≤ j + 1, nrm (t.p - dxy k) ≤ nrm (pos dxy s p i) := by
      intro i hi
      rcases Nat.lt_or_ge i (j + 1) with h | h
      · exact hc.trans (hmin i (by omega))
      · rw [show i = j + 1 by omega, hp1]
    by_cases h : -nrm (dxy k) < dot (t.p - dxy k) (unit (dxy k)) ∧ dot (t.p - dxy k) (unit (dxy k)) < nrm (dxy k)
    · have e : update dxy { t with si := k, p := t.p - dxy k, l := t.l + nrm (dxy k) } =
          { p := t.p - dxy k, l := t.l + nrm (dxy k), d := some (nrm (t.p - dxy k)), si := k,
            res := some (dot (t.p - dxy k) (unit (dxy k)) + (t.l + nrm (dxy k)), dot (t.p - dxy k) (perp (unit (dxy k))), k) } := by
        simp only [update, hm, closer, hc, decide_true, if_true, if_pos h]
      rw [e]
      refine ⟨hp1.symm, hl1.symm, ek'.symm, ⟨_, rfl, hd', j + 1, le_refl _, by rw [hp1]⟩,
        Or.inr ⟨j + 1, le_refl _, hg.2 ⟨hc, h⟩, fun i hi _ => hi, ?_⟩⟩
      simp only [out, hp1, hl1, ek']
    · have e : update dxy { t with si := k, p := t.p - dxy k, l := t.l + nrm (dxy k) } =
          { p := t.p - dxy k, l := t.l + nrm (dxy k), d := some (nrm (t.p - dxy k)), si := k, res := t.res } := by
        simp only [update, hm, closer, hc, decide_true, if_true, if_neg h]
      rw [e]
      have hng : ¬ Good dxy s p (j + 1) := fun hh => h (hg.1 hh).2
      refine ⟨hp1.symm, hl1.symm, ek'.symm, ⟨_, rfl, hd', j + 1, le_refl _, by rw [hp1]⟩, ?_⟩
      rcases hr with ⟨h1, h2⟩ | ⟨i, hi, hgi, hmax, h1⟩
      · refine Or.inl ⟨h1, fun i hi hgi => ?_⟩
        rcases Nat.lt_or_ge i (j + 1) with h | h
        · exact h2 i (by omega) hgi
        · exact hng ((show i = j + 1 by omega) ▸ hgi)
      · refine Or.inr ⟨i, by omega, hgi, fun i' hi' hgi' => ?_, h1⟩
        rcases Nat.lt_or_ge i' (j + 1) with h | h
        · exact hmax i' (by omega) hgi'
        · exact absurd ((show i' = j + 1 by omega) ▸ hgi') hng
  · have e : update dxy { t with si := k, p := t.p - dxy k, l := t.l + nrm (dxy k) } =
        { t with si := k, p := t.p - dxy k, l := t.l + nrm (dxy k) } := by
      simp only [update, hm, closer, hc, decide_false, Bool.false_eq_true, if_false]
    rw [e]
    have hng : ¬ Good dxy s p (j + 1) := fun hh => hc (hg.1 hh).1
    refine ⟨hp1.symm, hl1.symm, ek'.symm, ⟨m, hm, ?_, i0, by omega, hat⟩, ?_⟩
    · intro i hi
      rcases Nat.lt_or_ge i (j + 1) with h | h
      · exact hmin i (by omega)
      · rw [show i = j + 1 by omega, hp1]; exact (not_le.1 hc).le
    · rcases hr with ⟨h1, h2⟩ | ⟨i, hi, hgi, hmax, h1⟩
      · refine Or.inl ⟨h1, fun i hi hgi => ?_⟩
        rcases Nat.lt_or_ge i (j + 1) with h | h
        · exact h2 i (by omega) hgi
        · exact hng ((show i = j + 1 by omega) ▸ hgi)
      · refine Or.inr ⟨i, by omega, hgi, fun i' hi' hgi' => ?_, h1⟩
        rcases Nat.lt_or_ge i' (j + 1) with h | h
        · exact hmax i' (by omega) hgi'
        · exact absurd ((show i' = j + 1 by omega) ▸ hgi') hng

lemma inv_loop (dxy : ℕ → V2) (maxLen : ℝ) (s : ℕ) (p : V2) : ∀ (k j : ℕ) (t : Trace), k = s - j → Reached dxy maxLen s j → Inv dxy s p j t →
    ∃ J, Reached dxy maxLen s J ∧ ¬ Reached dxy maxLen s (J + 1) ∧ Inv dxy s p J (loop dxy maxLen k t) := by
  intro k
  induction k with
  | zero =>
    intro j t hk hre h
    exact ⟨j, hre, fun h' => by have := h'.1; omega, h⟩
  | succ k ih =>
    intro j t hk hre h
    by_cases hl : t.l < maxLen
    · rw [loop, if_pos hl]
      refine ih (j + 1) _ (by omega) ⟨by omega, fun i hi => ?_⟩ (inv_succ dxy s p j k hk t h)
      rcases Nat.lt_or_ge i j with hij | hij
      · exact hre.2 i hij
      · rw [show i = j by omega, ← h.hl]; exact hl
    · rw [loop, if_neg hl]
      exact ⟨j, hre, fun h' => hl (h.hl ▸ h'.2 j (by omega)), h⟩

lemma reached_mono {dxy : ℕ → V2} {maxLen : ℝ} {s i j : ℕ} (h : Reached dxy maxLen s j) (hij : i ≤ j) : Reached dxy maxLen s i :=
  ⟨hij.trans h.1, fun k hk => h.2 k (by omega)⟩

lemma search_inv (dxy : ℕ → V2) (maxLen : ℝ) (s : ℕ) (p : V2) :
    (search dxy maxLen s p = none ∧ ∀ j, Reached dxy maxLen s j → ¬ Good dxy s p j) ∨
    ∃ j, Reached dxy maxLen s j ∧ Good dxy s p j ∧ (∀ j', Reached dxy maxLen s j' → Good dxy s p j' → j' ≤ j) ∧
      search dxy maxLen s p = some (out dxy s p j) := by
  obtain ⟨J, hJ, hJ1, hinv⟩ := inv_loop dxy maxLen s p s 0 _ (by omega) ⟨by omega, fun i hi => absurd hi (Nat.not_lt_zero _)⟩
    (inv_zero dxy s p)
  have hle : ∀ j, Reached dxy maxLen s j → j ≤ J := by
    intro j hj
    by_contra hc
    exact hJ1 (reached_mono hj (by omega))
  rcases hinv.hr with ⟨h1, h2⟩ | ⟨i, hi, hg, hmax, h1⟩
  · exact Or.inl ⟨h1, fun j hj => h2 j (hle j hj)⟩
  · exact Or.inr ⟨i, reached_mono hJ hi, hg, fun j' hj' hg' => hmax j' (hle j' hj') hg', h1⟩

/-! ## Theorems -/

/-- For every history of the wind, the wake coordinates are those of the earliest time at which the air that is now at the point was closer to
the turbine than ever since, and within one time step of passing it. -/
theorem C57_spec (dxy : ℕ → V2) (maxLen : ℝ) (s : ℕ) (p : V2) (r : ℝ × ℝ × ℕ) :
    search dxy maxLen s p = some r ↔
      ∃ j, Reached dxy maxLen s j ∧ Good dxy s p j ∧ (∀ j', Reached dxy maxLen s j' → Good dxy s p j' → j' ≤ j) ∧ r = out dxy s p j := by
  rcases search_inv dxy maxLen s p with ⟨h1, h2⟩ | ⟨j, hj, hg, hmax, h1⟩
  · rw [h1]
    constructor
    · intro h; exact absurd h (by simp)
    · rintro ⟨j, hj, hg, -⟩; exact absurd hg (h2 j hj)
  · rw [h1]
    constructor
    · intro h; exact ⟨j, hj, hg, hmax, (Option.some.inj h).symm⟩
    · rintro ⟨i, hi, hgi, hmaxi, rfl⟩
      rw [show i = j from le_antisymm (hmax i hi hgi) (hmaxi j hj hg)]

/-- There is no wake at the point if and only if the air never passed the turbine. -/
theorem C57_no_wake (dxy : ℕ → V2) (maxLen : ℝ) (s : ℕ) (p : V2) :
    search dxy maxLen s p = none ↔ ∀ j, Reached dxy maxLen s j → ¬ Good dxy s p j := by
  rcases search_inv dxy maxLen s p with ⟨h1, h2⟩ | ⟨j, hj, hg, hmax, h1⟩
  · simp only [h1, true_iff]; exact h2
  · rw [h1]
    constructor
    · intro h; exact absurd h (by simp)
    · intro h; exact absurd hg (h j hj)

lemma heightLoop_absent (maxLen th : ℝ) (p : V2) : ∀ (hs : List (ℝ × (ℕ → V2))) (res : Option (ℝ × ℝ × ℕ)) (si : ℕ),
    (∀ h ∈ hs, h.1 ≠ th) → heightLoop maxLen th p hs res si = res := by
  intro hs
  induction hs with
  | nil => intro res si _; rfl
  | cons a hs ih =>
    obtain ⟨h, dxy⟩ := a
    intro res si hne
    rw [heightLoop, if_neg (fun e => hne (h, dxy) (by simp) e.symm)]
    exact ih res si (fun h' hh' => hne h' (by simp [hh']))

lemma heightLoop_at (maxLen th : ℝ) (p : V2) (dxy : ℕ → V2) (si : ℕ) : ∀ (hs : List (ℝ × (ℕ → V2))),
    (hs.map Prod.fst).Nodup → (th, dxy) ∈ hs → heightLoop maxLen th p hs none si = search dxy maxLen si p := by
  intro hs
  induction hs with
  | nil => intro _ h; simp at h
  | cons a hs ih =>
    obtain ⟨h, d⟩ := a
    intro hnd hmem
    simp only [List.map_cons, List.nodup_cons] at hnd
    by_cases e : th = h
    · have hd : d = dxy := by
        rcases List.mem_cons.1 hmem with h' | h'
        · exact (Prod.mk.inj h').2.symm
        · exact absurd (List.mem_map.2 ⟨_, h', e⟩) hnd.1
      have habs : ∀ h' ∈ hs, h'.1 ≠ th := fun h' hh' he => hnd.1 (List.mem_map.2 ⟨h', hh', he.trans e⟩)
      rw [heightLoop, if_pos e, hd]
      cases hs' : search dxy maxLen si p with
      | none => exact heightLoop_absent maxLen th p hs none si habs
      | some r => exact heightLoop_absent maxLen th p hs (some r) r.2.2 habs
    · rw [heightLoop, if_neg e]
      refine ih hnd.2 ?_
      rcases List.mem_cons.1 hmem with h' | h'
      · exact absurd (Prod.mk.inj h').1 e
      · exact h'

/-- The wake coordinates at a point follow the history at the height of the wake causing turbine: x and y are those of the trace, and z is the
height above the hub; where the air did not pass the turbine the coordinates are `1e20` and the wake is attributed to the state itself. -/
theorem C57_own_height (maxLen : ℝ) (heights : List (ℝ × (ℕ → V2))) (hnd : (heights.map Prod.fst).Nodup) (hub : V3) (th : ℝ) (dxy : ℕ → V2)
    (hmem : (th, dxy) ∈ heights) (i0 i : ℕ) (q : V3) :
    (∀ x y src, search dxy maxLen (i0 + i) (q.x - hub.x, q.y - hub.y) = some (x, y, src) →
      wakeCoos maxLen heights hub th i0 i q = (⟨x, y, q.z - hub.z⟩, src)) ∧
    (search dxy maxLen (i0 + i) (q.x - hub.x, q.y - hub.y) = none →
      wakeCoos maxLen heights hub th i0 i q = (⟨1e20, 1e20, q.z - hub.z⟩, i0 + i)) := by
  constructor
  · intro x y src h
    have hle : src ≤ i0 + i := by
      obtain ⟨j, -, -, -, hr⟩ := (C57_spec _ _ _ _ _).1 h
      have : src = i0 + i - j := congrArg (fun r => r.2.2) hr
      omega
    simp only [wakeCoos, heightLoop_at maxLen th _ dxy _ heights hnd hmem, h, min_eq_left hle]
  · intro h
    simp only [wakeCoos, heightLoop_at maxLen th _ dxy _ heights hnd hmem, h]

/-- A turbine whose hub height is not among the heights of the time lines makes no wake at all. -/
theorem C57_height_missing (maxLen : ℝ) (heights : List (ℝ × (ℕ → V2))) (hub : V3) (th : ℝ) (hne : ∀ h ∈ heights, h.1 ≠ th) (i0 i : ℕ) (q : V3) :
    wakeCoos maxLen heights hub th i0 i q = (⟨1e20, 1e20, q.z - hub.z⟩, i0 + i) := by
  simp only [wakeCoos, heightLoop_absent maxLen th _ heights none _ hne]

/-- The wake is never caused by a later state than the state itself. -/
theorem C57_causal_source (maxLen : ℝ) (heights : List (ℝ × (ℕ → V2))) (hub : V3) (th : ℝ) (i0 i : ℕ) (q : V3) :
    (wakeCoos maxLen heights hub th i0 i q).2 ≤ i0 + i := by
  unfold wakeCoos
  split
  · exact min_le_right _ _
  · exact le_refl _

lemma update_congr (dxy dxy' : ℕ → V2) (t : Trace) (h : dxy t.si = dxy' t.si) : update dxy t = update dxy' t := by
  simp only [update, h]

lemma update_si (dxy : ℕ → V2) (t : Trace) : (update dxy t).si = t.si := by
  unfold update
  simp only
  split_ifs <;> rfl

lemma loop_congr (dxy dxy' : ℕ → V2) (maxLen : ℝ) : ∀ (k : ℕ) (t : Trace), (∀ i < k, dxy i = dxy' i) →
    loop dxy maxLen k t = loop dxy' maxLen k t := by
  intro k
  induction k with
  | zero => intro t _; rfl
  | succ k ih =>
    intro t h
    simp only [loop, h k (by omega)]
    rw [update_congr dxy dxy' _ (h k (by omega)), ih _ (fun i hi => h i (by omega))]

/-- The wind of later states has no influence on the wake coordinates of a state. -/
theorem C57_causal_history (maxLen : ℝ) (heights : List (ℝ × (ℕ → V2))) (hnd : (heights.map Prod.fst).Nodup) (heights' : List (ℝ × (ℕ → V2)))
    (hnd' : (heights'.map Prod.fst).Nodup) (hub : V3) (th : ℝ) (dxy dxy' : ℕ → V2) (hmem : (th, dxy) ∈ heights) (hmem' : (th, dxy') ∈ heights')
    (i0 i : ℕ) (h : ∀ k ≤ i0 + i, dxy k = dxy' k) (q : V3) :
    wakeCoos maxLen heights hub th i0 i q = wakeCoos maxLen heights' hub th i0 i q := by
  have hs : ∀ p, search dxy maxLen (i0 + i) p = search dxy' maxLen (i0 + i) p := by
    intro p
    rw [search, search, update_congr dxy dxy' _ (h _ (le_refl _)), loop_congr dxy dxy' maxLen _ _ (fun k hk => h k (by omega))]
  simp only [wakeCoos, heightLoop_at maxLen th _ dxy _ heights hnd hmem, heightLoop_at maxLen th _ dxy' _ heights' hnd' hmem', hs]

/-- The wake coordinates of a state do not depend on how the states are split into chunks. -/
theorem C57_chunks (maxLen : ℝ) (heights : List (ℝ × (ℕ → V2))) (hub : V3) (th : ℝ) (i0 i i0' i' : ℕ) (h : i0 + i = i0' + i') (q : V3) :
    wakeCoos maxLen heights hub th i0 i q = wakeCoos maxLen heights hub th i0' i' q := by
  simp only [wakeCoos, h]

/-! ### Steady wind -/

lemma nrm_scale (L : ℝ) (hL : 0 ≤ L) (e : V2) (he : e.1 ^ 2 + e.2 ^ 2 = 1) : nrm (L * e.1, L * e.2) = L := by
  have : (L * e.1) ^ 2 + (L * e.2) ^ 2 = L ^ 2 := by linear_combination L ^ 2 * he
  simp only [nrm, this, Real.sqrt_sq hL]

lemma unit_scale (L : ℝ) (hL : 0 < L) (e : V2) (he : e.1 ^ 2 + e.2 ^ 2 = 1) : unit (L * e.1, L * e.2) = e := by
  simp only [unit, nrm_scale L hL.le e he]
  ext <;> simp <;> field_simp

section Steady
variable (dxy : ℕ → V2) (s : ℕ) (L : ℝ) (hL : 0 < L) (e : V2) (he : e.1 ^ 2 + e.2 ^ 2 = 1) (hd : ∀ k ≤ s, dxy k = (L * e.1, L * e.2))
include hL he hd

lemma steady_len (j : ℕ) : len dxy s j = j * L := by
  unfold len
  rw [Finset.sum_congr rfl (fun i _ => by rw [hd _ (by omega), nrm_scale L hL.le e he])]
  simp

lemma steady_pos (p : V2) (j : ℕ) : pos dxy s p j = (p.1 - j * L * e.1, p.2 - j * L * e.2) := by
  unfold pos
  rw [Finset.sum_congr rfl (fun i _ => hd _ (by omega))]
  simp only [Finset.sum_const, Finset.card_range]
  ext <;> simp [mul_assoc]

lemma steady_nrm_sq (p : V2) (j : ℕ) : (p.1 - j * L * e.1) ^ 2 + (p.2 - j * L * e.2) ^ 2 = (dot p e - j * L) ^ 2 + dot p (perp e) ^ 2 := by
  simp only [dot, perp]
  linear_combination (-p.1 ^ 2 - p.2 ^ 2 + (j * L) ^ 2) * he

lemma steady_nrm_le (p : V2) (i j : ℕ) : nrm (pos dxy s p j) ≤ nrm (pos dxy s p i) ↔ |dot p e - j * L| ≤ |dot p e - i * L| := by
  rw [steady_pos dxy s L hL e he hd, steady_pos dxy s L hL e he hd]
  simp only [nrm]
  rw [steady_nrm_sq dxy s L hL e he hd, steady_nrm_sq dxy s L hL e he hd, Real.sqrt_le_sqrt_iff (by positivity), ← sq_le_sq]
  constructor <;> intro h <;> linarith

lemma steady_dot (p : V2) (j : ℕ) : dot (pos dxy s p j) (unit (dxy (s - j))) = dot p e - j * L := by
  rw [steady_pos dxy s L hL e he hd, hd _ (by omega), unit_scale L hL e he]
  simp only [dot]
  linear_combination (-(j * L)) * he

lemma steady_cross (p : V2) (j : ℕ) : dot (pos dxy s p j) (perp (unit (dxy (s - j)))) = dot p (perp e) := by
  rw [steady_pos dxy s L hL e he hd, hd _ (by omega), unit_scale L hL e he]
  simp only [dot, perp]
  ring

lemma steady_good (p : V2) (j : ℕ) : Good dxy s p j ↔
    (∀ i < j, |dot p e - j * L| ≤ |dot p e - i * L|) ∧ |dot p e - j * L| < L := by
  unfold Good
  rw [steady_dot dxy s L hL e he hd, hd _ (by omega), nrm_scale L hL.le e he]
  simp only [steady_nrm_le dxy s L hL e he hd]

lemma steady_out (p : V2) (j : ℕ) : out dxy s p j = (dot p e, dot p (perp e), s - j) := by
  unfold out
  rw [steady_dot dxy s L hL e he hd, steady_cross dxy s L hL e he hd, steady_len dxy s L hL e he hd]
  simp

lemma steady_exists (maxLen : ℝ) (p : V2) (h1 : -L < dot p e) (h2 : dot p e < (s + 1) * L) (h3 : dot p e ≤ maxLen) :
    ∃ j, Reached dxy maxLen s j ∧ Good dxy s p j := by
  rcases lt_or_ge (dot p e) L with h | h
  · refine ⟨0, ⟨by omega, fun i hi => absurd hi (Nat.not_lt_zero _)⟩, (steady_good dxy s L hL e he hd p 0).2 ⟨fun i hi => absurd hi (Nat.not_lt_zero _), ?_⟩⟩
    rw [abs_lt]; push_cast; constructor <;> linarith
  · have hx : 0 ≤ dot p e / L := div_nonneg (hL.le.trans h) hL.le
    set j := ⌊dot p e / L⌋₊ with hj
    have hj1 : (j : ℝ) * L ≤ dot p e := by
      have := Nat.floor_le hx
      rwa [le_div_iff₀ hL] at this
    have hj2 : dot p e < (j + 1) * L := by
      have := Nat.lt_floor_add_one (dot p e / L)
      rwa [div_lt_iff₀ hL] at this
    have hjs : j ≤ s := by
      have : (j : ℝ) < s + 1 := by
        by_contra hc
        have := mul_le_mul_of_nonneg_right (not_lt.1 hc) hL.le
        linarith
      have : (j : ℝ) < ((s + 1 : ℕ) : ℝ) := by push_cast; exact this
      have := Nat.cast_lt.1 this
      omega
    refine ⟨j, ⟨hjs, fun i hi => ?_⟩, (steady_good dxy s L hL e he hd p j).2 ⟨fun i hi => ?_, ?_⟩⟩
    · rw [steady_len dxy s L hL e he hd]
      have : (i : ℝ) + 1 ≤ j := by exact_mod_cast hi
      have := mul_le_mul_of_nonneg_right this hL.le
      linarith
    · have : (i : ℝ) ≤ j := by exact_mod_cast hi.le
      have := mul_le_mul_of_nonneg_right this hL.le
      rw [abs_of_nonneg (by linarith), abs_of_nonneg (by linarith)]
      linarith
    · rw [abs_of_nonneg (by linarith)]; linarith

lemma steady_search (maxLen : ℝ) (p : V2) (h1 : -L < dot p e) (h2 : dot p e < (s + 1) * L) (h3 : dot p e ≤ maxLen) :
    ∃ j ≤ s, |dot p e - j * L| < L ∧ (0 ≤ dot p e → dot p e ≤ s * L → dot p e + L ≤ maxLen → |dot p e - j * L| ≤ L / 2) ∧
      search dxy maxLen s p = some (dot p e, dot p (perp e), s - j) := by
  obtain ⟨j0, hr0, hg0⟩ := steady_exists dxy s L hL e he hd maxLen p h1 h2 h3
  rcases search_inv dxy maxLen s p with ⟨-, h'⟩ | ⟨j, hr, hg, hmax, h⟩
  · exact absurd hg0 (h' j0 hr0)
  · rw [steady_out dxy s L hL e he hd] at h
    have hg' := (steady_good dxy s L hL e he hd p j).1 hg
    refine ⟨j, hr.1, hg'.2, fun h0 hs hm => ?_, h⟩
    obtain ⟨hga, hgb⟩ := hg'
    rw [abs_lt] at hgb
    rw [abs_le]
    constructor
    · -- x0 - jL ≥ -L/2: else j-1 is closer
      by_contra hc
      have hj : 0 < j := by
        rcases Nat.eq_zero_or_pos j with rfl | h
        · push_cast at hc; exact absurd (by linarith) hc
        · exact h
      have := hga (j - 1) (by omega)
      rw [Nat.cast_sub (by omega : 1 ≤ j)] at this
      push_cast at this
      rw [abs_of_neg (by linarith)] at this
      rcases abs_cases (dot p e - ((j : ℝ) - 1) * L) with ⟨ha, -⟩ | ⟨ha, -⟩ <;> rw [ha] at this <;> nlinarith
    · by_contra hc
      have hlt : j < s := by
        rcases Nat.lt_or_ge j s with h | h
        · exact h
        · have : (s : ℝ) ≤ j := by exact_mod_cast h
          have := mul_le_mul_of_nonneg_right this hL.le
          exact absurd (by linarith) hc
      have hr' : Reached dxy maxLen s (j + 1) := by
        refine ⟨hlt, fun i hi => ?_⟩
        rw [steady_len dxy s L hL e he hd]
        have : (i : ℝ) ≤ j := by exact_mod_cast (by omega : i ≤ j)
        have := mul_le_mul_of_nonneg_right this hL.le
        linarith
      have hg2 : Good dxy s p (j + 1) := by
        rw [steady_good dxy s L hL e he hd]
        have ha : |dot p e - ((j + 1 : ℕ) : ℝ) * L| ≤ L / 2 := by
          rw [abs_le]; push_cast; constructor <;> linarith
        refine ⟨fun i hi => ?_, by linarith⟩
        refine ha.trans ?_
        rcases Nat.lt_or_ge i j with hij | hij
        · have := hga i hij
          rw [abs_of_nonneg (by linarith)] at this
          linarith
        · rw [show i = j by omega, abs_of_nonneg (by linarith)]; linarith
      have := hmax (j + 1) hr' hg2
      omega

lemma steady_none (maxLen : ℝ) (p : V2) (h : dot p e ≤ -L ∨ (s + 1) * L ≤ dot p e ∨ (0 ≤ maxLen ∧ maxLen + 2 * L ≤ dot p e)) :
    search dxy maxLen s p = none := by
  rw [C57_no_wake]
  intro j hr hg
  have hb := ((steady_good dxy s L hL e he hd p j).1 hg).2
  rw [abs_lt] at hb
  have hj0 : (0 : ℝ) ≤ j * L := by positivity
  rcases h with h | h | ⟨h0, h⟩
  · linarith
  · have : (j : ℝ) ≤ s := by exact_mod_cast hr.1
    have := mul_le_mul_of_nonneg_right this hL.le
    linarith
  · rcases Nat.eq_zero_or_pos j with rfl | hj
    · push_cast at hb; linarith
    · have := hr.2 (j - 1) (by omega)
      rw [steady_len dxy s L hL e he hd, Nat.cast_sub (by omega : 1 ≤ j)] at this
      push_cast at this
      linarith

end Steady

lemma uv_scale (wd ws : ℝ) : wd2uv wd ws = (ws * (wd2uv wd 1).1, ws * (wd2uv wd 1).2) := by
  simp only [wd2uv, wd2wdvec]; ext <;> simp

lemma uv_unit (wd : ℝ) : (wd2uv wd 1).1 ^ 2 + (wd2uv wd 1).2 ^ 2 = 1 := Foxes.Props.Frames.n_unit wd

lemma scale_uv (wd ws : ℝ) (dt : ℤ) : scale dt (wd2uv wd ws) = (ws * dt * (wd2uv wd 1).1, ws * dt * (wd2uv wd 1).2) := by
  rw [uv_scale wd ws]; simp only [scale]; ext <;> simp <;> ring

lemma frames_x (hub q : V3) (wd : ℝ) : (Foxes.Frames.wakeCoos hub wd q).x = dot (q.x - hub.x, q.y - hub.y) (wd2uv wd 1) := by
  simp [Foxes.Frames.wakeCoos, Foxes.Frames.V3.sub, Foxes.Frames.V3.dot, Foxes.Frames.axisN, dot]

lemma frames_eq (hub q : V3) (wd : ℝ) : (Foxes.Frames.wakeCoos hub wd q) =
    ⟨dot (q.x - hub.x, q.y - hub.y) (wd2uv wd 1), dot (q.x - hub.x, q.y - hub.y) (perp (wd2uv wd 1)), q.z - hub.z⟩ := by
  simp [Foxes.Frames.wakeCoos, Foxes.Frames.V3.sub, Foxes.Frames.V3.dot, Foxes.Frames.axisN, Foxes.Frames.axisM, Foxes.Frames.axisZ, dot, perp]

/-- If wind direction, wind speed and time step are the same in all states up to the present, the wake coordinates are those of the frame
`RotorWD` as long as the air of the wake started after the first state, not more than one time step upstream and within the maximal length;
and the wake is caused by the state at which the air passed the turbine, up to half a time step. -/
theorem C57_steady (maxLen : ℝ) (heights : List (ℝ × (ℕ → V2))) (hnd : (heights.map Prod.fst).Nodup) (hub : V3) (th : ℝ) (dxy : ℕ → V2)
    (hmem : (th, dxy) ∈ heights) (i0 i : ℕ) (wd ws : ℝ) (hws : 0 < ws) (dt : ℤ) (hdt : 0 < dt)
    (hd : ∀ k ≤ i0 + i, dxy k = scale dt (wd2uv wd ws)) (q : V3)
    (h1 : -(ws * dt) < (Foxes.Frames.wakeCoos hub wd q).x) (h2 : (Foxes.Frames.wakeCoos hub wd q).x < (i0 + i + 1) * (ws * dt))
    (h3 : (Foxes.Frames.wakeCoos hub wd q).x ≤ maxLen) :
    (wakeCoos maxLen heights hub th i0 i q).1 = Foxes.Frames.wakeCoos hub wd q ∧
    ∃ j ≤ i0 + i, (wakeCoos maxLen heights hub th i0 i q).2 = i0 + i - j ∧
      |(Foxes.Frames.wakeCoos hub wd q).x - j * (ws * dt)| < ws * dt ∧
      (0 ≤ (Foxes.Frames.wakeCoos hub wd q).x → (Foxes.Frames.wakeCoos hub wd q).x ≤ (i0 + i) * (ws * dt) →
        (Foxes.Frames.wakeCoos hub wd q).x + ws * dt ≤ maxLen → |(Foxes.Frames.wakeCoos hub wd q).x - j * (ws * dt)| ≤ ws * dt / 2) := by
  have hL : 0 < ws * dt := by have : (0 : ℝ) < dt := by exact_mod_cast hdt
                              positivity
  rw [frames_x] at *
  obtain ⟨j, hj, ha, hb, hs⟩ := steady_search dxy (i0 + i) (ws * dt) hL (wd2uv wd 1) (uv_unit wd)
    (fun k hk => (hd k hk).trans (scale_uv wd ws dt)) maxLen (q.x - hub.x, q.y - hub.y) h1 (by push_cast; exact h2) h3
  have hw := (C57_own_height maxLen heights hnd hub th dxy hmem i0 i q).1 _ _ _ hs
  rw [hw]
  exact ⟨(frames_eq hub q wd).symm, j, hj, rfl, ha, by push_cast at hb; exact hb⟩

/-- In steady wind, the air that is more than one time step upstream of the turbine, or that was downstream of the turbine by more than one
time step already in the first state, or that is beyond the maximal length by two time steps, has no wake. -/
theorem C57_steady_no_wake (maxLen : ℝ) (heights : List (ℝ × (ℕ → V2))) (hnd : (heights.map Prod.fst).Nodup) (hub : V3) (th : ℝ) (dxy : ℕ → V2)
    (hmem : (th, dxy) ∈ heights) (i0 i : ℕ) (wd ws : ℝ) (hws : 0 < ws) (dt : ℤ) (hdt : 0 < dt)
    (hd : ∀ k ≤ i0 + i, dxy k = scale dt (wd2uv wd ws)) (q : V3)
    (h : (Foxes.Frames.wakeCoos hub wd q).x ≤ -(ws * dt) ∨ (i0 + i + 1) * (ws * dt) ≤ (Foxes.Frames.wakeCoos hub wd q).x ∨
      (0 ≤ maxLen ∧ maxLen + 2 * (ws * dt) ≤ (Foxes.Frames.wakeCoos hub wd q).x)) :
    wakeCoos maxLen heights hub th i0 i q = (⟨1e20, 1e20, q.z - hub.z⟩, i0 + i) := by
  have hL : 0 < ws * dt := by have : (0 : ℝ) < dt := by exact_mod_cast hdt
                              positivity
  rw [frames_x] at h
  exact (C57_own_height maxLen heights hnd hub th dxy hmem i0 i q).2
    (steady_none dxy (i0 + i) (ws * dt) hL (wd2uv wd 1) (uv_unit wd) (fun k hk => (hd k hk).trans (scale_uv wd ws dt)) maxLen _
      (by push_cast; exact h))

/-! ### Centreline points -/

lemma clLoop_steady (dxy : ℕ → V2) (L : ℝ) (hL : 0 < L) (e : V2) (he : e.1 ^ 2 + e.2 ^ 2 = 1) : ∀ (k : ℕ) (l : ℝ) (dp : V2),
    (∀ i ≤ k, dxy i = (L * e.1, L * e.2)) → -(L / 2) < l → l ≤ (k + 1) * L + L / 2 →
    ∃ j : ℕ, (clLoop dxy k l dp).2.1 = l - j * L ∧ (clLoop dxy k l dp).2.2 = (dp.1 + j * L * e.1, dp.2 + j * L * e.2) ∧
      -1 ≤ (clLoop dxy k l dp).1 ∧ (clLoop dxy k l dp).1 ≤ k ∧ (0 < l → (clLoop dxy k l dp).1 < k) ∧ -(L / 2) < l - j * L ∧ l - j * L ≤ L / 2 := by
  intro k
  induction k with
  | zero =>
    intro l dp hd h1 h2
    rw [clLoop]
    by_cases hl : 0 < l
    · rw [if_pos hl]
      simp only [hd 0 (le_refl _), nrm_scale L hL.le e he]
      push_cast at h2
      by_cases hc : |l - L| < |l|
      · refine ⟨1, ?_⟩
        have : L / 2 < l := by
          rw [abs_of_pos hl, abs_lt] at hc; linarith
        simp only [if_pos hc, Nat.cast_one, one_mul]
        refine ⟨trivial, by ext <;> simp, by decide, by decide, fun _ => by decide, by linarith, by linarith⟩
      · refine ⟨0, ?_⟩
        have : l ≤ L / 2 := by
          by_contra hh
          apply hc
          rw [abs_of_pos hl, abs_lt]; constructor <;> linarith
        simp only [if_neg hc, Nat.cast_zero, zero_mul, sub_zero, add_zero]
        refine ⟨trivial, trivial, by decide, by decide, fun _ => by decide, h1, this⟩
    · rw [if_neg hl]
      refine ⟨0, by simp, by ext <;> simp, by simp, by simp, fun h => absurd h hl, by simpa using h1, by push_cast; linarith⟩
  | succ k ih =>
    intro l dp hd h1 h2
    rw [clLoop]
    by_cases hl : 0 < l
    · rw [if_pos hl]
      simp only [hd (k + 1) (le_refl _), nrm_scale L hL.le e he]
      push_cast at h2
      have hk : (0 : ℝ) ≤ k := Nat.cast_nonneg k
      by_cases hc : |l - L| < |l|
      · have h3 : L / 2 < l := by
          rw [abs_of_pos hl, abs_lt] at hc; linarith
        simp only [if_pos hc]
        obtain ⟨j, a1, a2, a3, a4, a5, a6, a7⟩ := ih (l - L) (dp + (L * e.1, L * e.2)) (fun i hi => hd i (by omega)) (by linarith) (by linarith)
        refine ⟨j + 1, ?_, ?_, a3, by push_cast; omega, fun _ => by push_cast; omega, by push_cast; linarith, by push_cast; linarith⟩
        · rw [a1]; push_cast; ring
        · rw [a2]; push_cast; ext <;> simp <;> ring
      · have h3 : l ≤ L / 2 := by
          by_contra hh
          apply hc
          rw [abs_of_pos hl, abs_lt]; constructor <;> linarith
        simp only [if_neg hc]
        obtain ⟨j, a1, a2, a3, a4, a5, a6, a7⟩ := ih l dp (fun i hi => hd i (by omega)) h1 (by nlinarith)
        exact ⟨j, a1, a2, a3, by push_cast; omega, fun _ => by push_cast; omega, a6, a7⟩
    · rw [if_neg hl]
      refine ⟨0, by simp, by ext <;> simp, by push_cast; omega, by simp, fun h => absurd h hl, by simpa using h1, by push_cast; linarith⟩

/-- The property of the centreline that fails: in steady wind, the point at downstream distance `x` on the centreline is mirrored at the closest
whole number of time steps, so it does not have the downstream coordinate `x`. -/
theorem C57_centreline_mirrored (dxy : ℕ → V2) (n : ℕ) (hub : V3) (i0 i : ℕ) (hi : i < n) (wd ws : ℝ) (hws : 0 < ws) (dt : ℤ) (hdt : 0 < dt)
    (hd : ∀ k < n, dxy k = scale dt (wd2uv wd ws)) (x : ℝ) (h0 : 0 < x) (h1 : x ≤ (i + 1) * (ws * dt)) :
    ∃ j : ℕ, |x - j * (ws * dt)| ≤ ws * dt / 2 ∧
      centreline dxy n hub i0 i x = some (some (Foxes.Frames.centreline hub wd (2 * (j * (ws * dt)) - x))) := by
  have hL : 0 < ws * dt := by have : (0 : ℝ) < dt := by exact_mod_cast hdt
                              positivity
  set L := ws * dt with hLd
  have hd' : ∀ k < n, dxy k = (L * (wd2uv wd 1).1, L * (wd2uv wd 1).2) := fun k hk => (hd k hk).trans (scale_uv wd ws dt)
  obtain ⟨j, a1, a2, a3, a4, a5, a6, a7⟩ := clLoop_steady dxy L hL (wd2uv wd 1) (uv_unit wd) i x (0, 0) (fun k hk => hd' k (by omega))
    (by linarith) (by linarith)
  have habs : |x - j * L| ≤ L / 2 := abs_le.2 ⟨a6.le, a7⟩
  refine ⟨j, habs, ?_⟩
  have hlt := a5 h0
  have hsi : ((clLoop dxy i x (0, 0)).1 + 1).toNat < n := by omega
  simp only [centreline, clEnd, if_pos hsi, hd' _ hsi, nrm_scale L hL.le _ (uv_unit wd), a1, a2]
  rw [if_pos (by linarith)]
  simp only [Foxes.Frames.centreline, Foxes.Frames.V3.add, Foxes.Frames.V3.smul, Foxes.Frames.axisN, Option.some.injEq]
  have e1 : (x - j * L) / L * (L * (wd2uv wd 1).1) = (x - j * L) * (wd2uv wd 1).1 := by field_simp
  have e2 : (x - j * L) / L * (L * (wd2uv wd 1).2) = (x - j * L) * (wd2uv wd 1).2 := by field_simp
  rw [e1, e2]
  congr 1 <;> simp <;> ring

/-- The part that holds: in steady wind the centreline point is the one of `RotorWD` if and only if `x` is a whole number of time steps. -/
theorem C57_centreline_partial (dxy : ℕ → V2) (n : ℕ) (hub : V3) (i0 i : ℕ) (hi : i < n) (wd ws : ℝ) (hws : 0 < ws) (dt : ℤ) (hdt : 0 < dt)
    (hd : ∀ k < n, dxy k = scale dt (wd2uv wd ws)) (x : ℝ) (h0 : 0 < x) (h1 : x ≤ (i + 1) * (ws * dt)) :
    centreline dxy n hub i0 i x = some (some (Foxes.Frames.centreline hub wd x)) ↔ ∃ j : ℕ, x = j * (ws * dt) := by
  have hL : 0 < ws * dt := by have : (0 : ℝ) < dt := by exact_mod_cast hdt
                              positivity
  obtain ⟨j, ha, hc⟩ := C57_centreline_mirrored dxy n hub i0 i hi wd ws hws dt hdt hd x h0 h1
  rw [hc]
  constructor
  · intro h
    have h' := congrArg (fun p => (Foxes.Frames.wakeCoos hub wd p).x) (Option.some.inj (Option.some.inj h))
    simp only [Foxes.Props.Frames.C32_centreline] at h'
    exact ⟨j, by linarith⟩
  · rintro ⟨m, rfl⟩
    have hjm : (m : ℝ) = j := by
      have h2 : |((m : ℤ) - j : ℝ)| < 1 := by
        rw [← sub_mul, abs_mul, abs_of_pos hL] at ha
        by_contra hh
        have := mul_le_mul_of_nonneg_right (not_lt.1 hh) hL.le
        push_cast at this
        linarith
      have h3 : |((m : ℤ) - (j : ℤ))| < 1 := by exact_mod_cast h2
      have h4 := Int.abs_lt_one_iff.1 h3
      have : (m : ℤ) = j := by omega
      exact_mod_cast this
    rw [hjm, show 2 * ((j : ℝ) * (ws * dt)) - j * (ws * dt) = j * (ws * dt) by ring]

/-- The first state of the chunk is ignored: the first state of every chunk gets the centreline of the very first displacement. -/
theorem C57_centreline_first_state (dxy : ℕ → V2) (n : ℕ) (hn : 0 < n) (hub : V3) (i0 : ℕ) (h : 0 < nrm (dxy 0)) :
    centreline dxy n hub i0 0 (nrm (dxy 0)) = some (some ⟨hub.x + (dxy 0).1, hub.y + (dxy 0).2, hub.z⟩) := by
  have e : clLoop dxy 0 (nrm (dxy 0)) (0, 0) = (-1, 0, dxy 0) := by
    rw [clLoop, if_pos h]
    have hc : |nrm (dxy 0) - nrm (dxy 0)| < |nrm (dxy 0)| := by rw [sub_self, abs_zero]; exact abs_pos.2 h.ne'
    simp only [if_pos hc]
    rw [sub_self]
    exact congrArg (fun d => ((-1 : ℤ), (0 : ℝ), d)) (zero_add (dxy 0))
  rw [centreline, e]
  have h2 : |(0 : ℝ)| < 2 * nrm (dxy 0) := by rw [abs_zero]; linarith
  simp only [clEnd, show ((-1 : ℤ) + 1).toNat = 0 from rfl, if_pos hn, if_pos h2, zero_div, zero_mul, sub_zero]

/-- Finding: the centreline of a state depends on how the states are split into chunks. -/
theorem C57_centreline_chunks : ∃ (dxy : ℕ → V2) (n : ℕ) (hub : V3) (x : ℝ),
    centreline dxy n hub 1 0 x ≠ centreline dxy n hub 0 1 x := by
  let dxy : ℕ → V2 := fun k => if k = 0 then (1, 0) else (0, 1)
  have d0 : dxy 0 = (1, 0) := rfl
  have d1 : dxy 1 = (0, 1) := rfl
  have n0 : nrm (1, 0) = 1 := by simp [nrm]
  have n1 : nrm (0, 1) = 1 := by simp [nrm]
  refine ⟨dxy, 2, ⟨0, 0, 0⟩, 1, ?_⟩
  have a := C57_centreline_first_state dxy 2 (by omega) ⟨0, 0, 0⟩ 1 (by rw [d0, n0]; norm_num)
  rw [d0, n0] at a
  rw [a]
  have e : clLoop dxy 1 1 (0, 0) = (0, 0, (0, 1)) := by
    rw [clLoop, if_pos (by norm_num)]
    simp only [d1, n1, sub_self, abs_zero, abs_one, zero_lt_one, if_true]
    rw [clLoop, if_neg (by norm_num)]
    simp
  have b : centreline dxy 2 ⟨0, 0, 0⟩ 0 1 1 = some (some ⟨0, 1, 0⟩) := by
    simp only [centreline, e, clEnd]
    simp [d1, n1]
  rw [b]
  intro h
  have := Option.some.inj (Option.some.inj h)
  simp at this

/-- At `x = 0` the centreline is the hub, unless the displacement of the following state vanishes. -/
theorem C57_centreline_hub_partial (dxy : ℕ → V2) (n : ℕ) (hub : V3) (i0 i : ℕ) (hi : i + 1 < n) (h : 0 < nrm (dxy (i + 1))) :
    centreline dxy n hub i0 i 0 = some (some hub) := by
  have e : clLoop dxy i 0 (0, 0) = ((i : ℤ), 0, (0, 0)) := by cases i <;> (rw [clLoop, if_neg (lt_irrefl _)])
  rw [centreline, e]
  have h2 : |(0 : ℝ)| < 2 * nrm (dxy (i + 1)) := by rw [abs_zero]; linarith
  simp only [clEnd, show ((i : ℤ) + 1).toNat = i + 1 by omega, if_pos hi, if_pos h2, zero_div, zero_mul, sub_zero, add_zero]

/-- What is missing: if all states are in one chunk, a centreline point at or upstream of the rotor raises an `IndexError` for the last state. -/
theorem C57_centreline_last_state_raises (dxy : ℕ → V2) (n : ℕ) (hub : V3) (i0 i : ℕ) (hi : i + 1 = n) (x : ℝ) (hx : x ≤ 0) :
    centreline dxy n hub i0 i x = none := by
  have e : clLoop dxy i x (0, 0) = ((i : ℤ), x, (0, 0)) := by cases i <;> (rw [clLoop, if_neg (not_lt.2 hx)])
  rw [centreline, e]
  simp only [clEnd, show ((i : ℤ) + 1).toNat = i + 1 by omega, hi, if_neg (lt_irrefl _)]

/-! ## Non-vacuity -/

/-- west wind with 10 m/s in steps of 60 s, for ever: 1.5 km downstream, 30 states after the start -/
example : (wakeCoos 20000 [(100, fun _ => scale 60 (wd2uv 270 10))] ⟨0, 0, 100⟩ 100 20 10 ⟨1500, 50, 80⟩).1 = ⟨1500, 50, -20⟩ := by
  have hf := Foxes.Props.Frames.C32_west_wind ⟨0, 0, 100⟩ ⟨1500, 50, 80⟩
  have := (C57_steady 20000 [(100, fun _ => scale 60 (wd2uv 270 10))] (by simp) ⟨0, 0, 100⟩ 100 _ (by simp) 20 10 270 10 (by norm_num) 60
    (by norm_num) (fun _ _ => rfl) ⟨1500, 50, 80⟩ (by rw [hf]; norm_num) (by rw [hf]; norm_num) (by rw [hf]; norm_num)).1
  rw [this, hf]; norm_num

/-- the wake is not there yet after one state -/
example : wakeCoos 20000 [(100, fun _ => scale 60 (wd2uv 270 10))] ⟨0, 0, 100⟩ 100 0 1 ⟨1500, 50, 80⟩ = (⟨1e20, 1e20, -20⟩, 1) := by
  have hf := Foxes.Props.Frames.C32_west_wind ⟨0, 0, 100⟩ ⟨1500, 50, 80⟩
  have := C57_steady_no_wake 20000 [(100, fun _ => scale 60 (wd2uv 270 10))] (by simp) ⟨0, 0, 100⟩ 100 _ (by simp) 0 1 270 10 (by norm_num) 60
    (by norm_num) (fun _ _ => rfl) ⟨1500, 50, 80⟩ (by rw [hf]; norm_num)
  rw [this]; norm_num

/-- a point 250 m downstream of the turbine gets the centreline point at 350 m, with time steps of 300 m -/
example : centreline (fun _ => scale 30 (wd2uv 270 10)) 5 ⟨0, 0, 100⟩ 0 3 250 =
    some (some (Foxes.Frames.centreline ⟨0, 0, 100⟩ 270 350)) := by
  obtain ⟨j, h1, h2⟩ := C57_centreline_mirrored (fun _ => scale 30 (wd2uv 270 10)) 5 ⟨0, 0, 100⟩ 0 3 (by omega) 270 10 (by norm_num) 30
    (by norm_num) (fun _ _ => rfl) 250 (by norm_num) (by norm_num)
  rw [abs_le] at h1
  norm_num at h1
  have a : (0 : ℝ) < j := by linarith
  have b : (j : ℝ) < 2 := by linarith
  have a' : 0 < j := by exact_mod_cast a
  have b' : j < 2 := by exact_mod_cast b
  have : j = 1 := by omega
  subst this
  rw [h2]; norm_num

end Foxes.Props.Timelines
