import Verif.Model.Factory
import Mathlib.Tactic.Linarith
import Mathlib.Tactic.Ring
/-
Lemmas about splitting and searching of strings.
-/
namespace Foxes.Factory

theorem pySplit_nomem (c : Char) (s : Str) (h : c ∉ s) : pySplit c s = [s] := by
  induction s with
  | nil => rfl
  | cons d s ih =>
    simp only [List.mem_cons, not_or] at h
    have hd : d ≠ c := fun e => h.1 e.symm
    simp [pySplit, hd, ih h.2]

theorem pySplit_append (c : Char) (a r : Str) (h : c ∉ a) : pySplit c (a ++ c :: r) = a :: pySplit c r := by
  induction a with
  | nil => simp [pySplit]
  | cons d a ih =>
    simp only [List.mem_cons, not_or] at h
    have hd : d ≠ c := fun e => h.1 e.symm
    simp [pySplit, hd, ih h.2]

theorem pySplit_cases (c : Char) (s : Str) :
    (c ∉ s ∧ pySplit c s = [s]) ∨ ∃ a r, c ∉ a ∧ s = a ++ c :: r ∧ pySplit c s = a :: pySplit c r := by
  by_cases h : c ∈ s
  · right
    obtain ⟨a, r, rfl, ha⟩ := List.eq_append_cons_of_mem h
    exact ⟨a, r, ha, rfl, pySplit_append c a r ha⟩
  · exact Or.inl ⟨h, pySplit_nomem c s h⟩

theorem pySplit_ne_nil (c : Char) (s : Str) : pySplit c s ≠ [] := by
  rcases pySplit_cases c s with ⟨_, h⟩ | ⟨a, r, _, _, h⟩ <;> rw [h] <;> simp

theorem pySplit_pair (c : Char) (s a v : Str) (h : pySplit c s = [a, v]) : s = a ++ c :: v ∧ c ∉ a ∧ c ∉ v := by
  rcases pySplit_cases c s with ⟨_, h'⟩ | ⟨a', r, ha, rfl, h'⟩
  · rw [h'] at h; simp at h
  · rw [h'] at h
    simp only [List.cons.injEq] at h
    obtain ⟨rfl, h⟩ := h
    rcases pySplit_cases c r with ⟨hr, h''⟩ | ⟨b, r', _, rfl, h''⟩
    · rw [h''] at h
      simp at h; subst h
      exact ⟨rfl, ha, hr⟩
    · rw [h''] at h
      simp at h
      exact absurd h.2 (pySplit_ne_nil c r')

/-- `p` occurs in `s` at position `i` -/
def OccursAt (p s : Str) (i : ℕ) : Prop := ∃ a b, s = a ++ p ++ b ∧ a.length = i

theorem occursAt_zero (p s : Str) : OccursAt p s 0 ↔ p <+: s := by
  constructor
  · rintro ⟨a, b, rfl, h⟩
    have : a = [] := List.length_eq_zero_iff.mp h
    subst this
    exact ⟨b, by simp⟩
  · rintro ⟨b, rfl⟩
    exact ⟨[], b, by simp, rfl⟩

theorem occursAt_succ (p s : Str) (c : Char) (i : ℕ) : OccursAt p (c :: s) (i + 1) ↔ OccursAt p s i := by
  constructor
  · rintro ⟨a, b, h, hl⟩
    cases a with
    | nil => simp at hl
    | cons d a =>
      simp only [List.cons_append, List.cons.injEq] at h
      exact ⟨a, b, h.2, by simpa using hl⟩
  · rintro ⟨a, b, rfl, hl⟩
    exact ⟨c :: a, b, by simp, by simp [hl]⟩

theorem not_occursAt_nil (p : Str) (hp : p ≠ []) (i : ℕ) : ¬ OccursAt p [] i := by
  rintro ⟨a, b, h, _⟩
  simp at h
  exact hp h.2.1

theorem find_some (p : Str) (hp : p ≠ []) (s : Str) (i : ℕ) :
    find p s = some i ↔ OccursAt p s i ∧ ∀ j < i, ¬ OccursAt p s j := by
  induction s generalizing i with
  | nil =>
    simp only [find, if_neg hp]
    constructor
    · intro h; simp at h
    · rintro ⟨h, _⟩; exact absurd h (not_occursAt_nil p hp i)
  | cons c s ih =>
    by_cases h0 : p.isPrefixOf (c :: s) = true
    · simp only [find, h0, if_true]
      have hz : OccursAt p (c :: s) 0 := (occursAt_zero _ _).2 (List.isPrefixOf_iff_prefix.1 h0)
      constructor
      · intro h
        simp at h; subst h
        exact ⟨hz, by simp⟩
      · rintro ⟨_, h⟩
        cases i with
        | zero => rfl
        | succ i => exact absurd hz (h 0 (by omega))
    · have hz : ¬ OccursAt p (c :: s) 0 := fun h => h0 (List.isPrefixOf_iff_prefix.2 ((occursAt_zero _ _).1 h))
      simp only [find, if_neg h0]
      cases i with
      | zero =>
        constructor
        · intro h; simp at h
        · rintro ⟨h, _⟩; exact absurd h hz
      | succ i =>
        have : ((find p s).map (· + 1) = some (i + 1)) ↔ find p s = some i := by
          cases find p s <;> simp
        rw [this, ih]
        constructor
        · rintro ⟨h, hj⟩
          refine ⟨(occursAt_succ _ _ _ _).2 h, ?_⟩
          intro j hji
          cases j with
          | zero => exact hz
          | succ j => rw [occursAt_succ]; exact hj j (by omega)
        · rintro ⟨h, hj⟩
          refine ⟨(occursAt_succ _ _ _ _).1 h, ?_⟩
          intro j hji
          have := hj (j + 1) (by omega)
          rwa [occursAt_succ] at this

theorem find_none (p : Str) (hp : p ≠ []) (s : Str) : find p s = none ↔ ∀ i, ¬ OccursAt p s i := by
  constructor
  · intro h i hi
    classical
    have hex : ∃ i, OccursAt p s i := ⟨i, hi⟩
    have := (find_some p hp s (Nat.find hex)).2 ⟨Nat.find_spec hex, fun j hj => Nat.find_min hex hj⟩
    rw [h] at this; simp at this
  · intro h
    cases hf : find p s with
    | none => rfl
    | some i => exact absurd ((find_some p hp s i).1 hf).1 (h i)

/-- The text `p` ends the value `w`: it does not occur earlier in `w ++ p`. -/
def EndsAt (w p : Str) : Prop := p ≠ [] → ∀ j < w.length, ¬ OccursAt p (w ++ p) j

theorem occursAt_append_iff (w p r : Str) (j : ℕ) (hj : j < w.length) : OccursAt p (w ++ p ++ r) j ↔ OccursAt p (w ++ p) j := by
  constructor
  · rintro ⟨a, b, h, hl⟩
    have hlen : (a ++ p).length ≤ (w ++ p).length := by simp; omega
    have hp : a ++ p <+: w ++ p := by
      apply List.prefix_of_prefix_length_le (l₃ := w ++ p ++ r)
      · exact ⟨b, h.symm⟩
      · exact ⟨r, rfl⟩
      · exact hlen
    obtain ⟨b', hb'⟩ := hp
    exact ⟨a, b', hb'.symm, hl⟩
  · rintro ⟨a, b, h, hl⟩
    exact ⟨a, b ++ r, by rw [h]; simp, hl⟩

theorem find_append (w p r : Str) (hp : p ≠ []) (h : EndsAt w p) : find p (w ++ p ++ r) = some w.length := by
  rw [find_some p hp]
  refine ⟨⟨w, r, rfl, rfl⟩, ?_⟩
  intro j hj
  rw [occursAt_append_iff _ _ _ _ hj]
  exact h hp j hj

/-- a text whose first character does not occur again in it ends a value unless the value contains it -/
theorem endsAt_of_not_infix (c : Char) (q w : Str) (hq : c ∉ q) (h : ¬ (c :: q) <:+: w) : EndsAt w (c :: q) := by
  intro _ j hj ⟨a, b, he, hl⟩
  -- the occurrence lies in `w` or overlaps the final `c`
  by_cases hin : j + (c :: q).length ≤ w.length
  · apply h
    have h1 : a ++ (c :: q) <+: w := by
      apply List.prefix_of_prefix_length_le (l₃ := w ++ (c :: q))
      · exact ⟨b, he.symm⟩
      · exact ⟨_, rfl⟩
      · simp at hin ⊢; omega
    obtain ⟨d, hd⟩ := h1
    exact ⟨a, d, hd⟩
  · -- position of the final c inside q
    have h1 : (w ++ c :: q)[w.length]? = some c := by simp
    rw [he] at h1
    have hlt : w.length - j - 1 < q.length := by simp at hin; omega
    have h2 : (a ++ c :: q ++ b)[w.length]? = some (q[w.length - j - 1]'hlt) := by
      have e : w.length = a.length + (1 + (w.length - j - 1)) := by omega
      rw [List.append_assoc, List.getElem?_append_right (by omega)]
      have : w.length - a.length = (w.length - j - 1) + 1 := by omega
      rw [this, List.cons_append, List.getElem?_cons_succ, List.getElem?_append_left hlt]
      exact List.getElem?_eq_getElem hlt
    rw [h2] at h1
    simp at h1
    exact hq (h1 ▸ List.getElem_mem hlt)

theorem matchGo_iff (ps : List Str) (hwf : ∀ p ∈ ps.dropLast, p ≠ []) (s : Str) (ws : List Str) :
    matchGo ps s = some ws ↔ List.Forall₂ EndsAt ws ps ∧
      ∃ junk, s = (List.zipWith (· ++ ·) ws ps).flatten ++ junk ∧ (ps.getLast? = some [] → junk = []) := by
  induction ps generalizing s ws with
  | nil =>
    constructor
    · intro h
      simp [matchGo] at h; subst h
      exact ⟨List.Forall₂.nil, s, by simp, by simp⟩
    · rintro ⟨h, _⟩
      cases h
      rfl
  | cons p ps ih =>
    by_cases hp : p = []
    · subst hp
      have hps : ps = [] := by
        by_contra hne
        have : ([] : Str) ∈ (([] : Str) :: ps).dropLast := by
          cases ps with
          | nil => exact absurd rfl hne
          | cons q qs => simp [List.dropLast]
        exact hwf _ this rfl
      subst hps
      simp only [matchGo, if_true, Option.map_some, Option.some.injEq]
      constructor
      · intro h; subst h
        exact ⟨List.Forall₂.cons (fun h => absurd rfl h) List.Forall₂.nil, [], by simp, by simp⟩
      · rintro ⟨h, junk, hs, hj⟩
        cases h with
        | cons h1 h2 =>
          cases h2
          have := hj (by simp)
          subst this
          simp at hs
          simp [hs]
    · have hwf' : ∀ q ∈ ps.dropLast, q ≠ [] := by
        intro q hq
        apply hwf
        cases ps with
        | nil => simp at hq
        | cons r rs => simp [List.dropLast] at hq ⊢; exact Or.inr hq
      have hlast : ∀ x : Str, x = [] → ((p :: ps).getLast? = some x ↔ ps.getLast? = some x) := by
        rintro x rfl
        cases ps with
        | nil => simp [hp]
        | cons r rs => simp [List.getLast?_cons_cons]
      simp only [matchGo, if_neg hp]
      constructor
      · intro h
        cases hf : find p s with
        | none => rw [hf] at h; simp at h
        | some i =>
          rw [hf] at h
          simp only [Option.map_eq_some_iff] at h
          obtain ⟨ws', hm, rfl⟩ := h
          obtain ⟨⟨a, b, hs, hl⟩, hmin⟩ := (find_some p hp s i).1 hf
          obtain ⟨hF, junk, hj, hje⟩ := (ih hwf' _ _).1 hm
          have ht : s.take i = a := by rw [hs, List.append_assoc]; simp [← hl]
          have hd : s.drop (i + p.length) = b := by
            rw [hs, ← hl]
            have : a.length + p.length = (a ++ p).length := by simp
            rw [this, List.drop_left]
          refine ⟨List.Forall₂.cons ?_ hF, junk, ?_, fun h => hje ((hlast _ rfl).1 h)⟩
          · intro _ j hjl
            rw [ht] at hjl ⊢
            have := hmin j (by omega)
            rw [hs, occursAt_append_iff _ _ _ _ hjl] at this
            exact this
          · rw [ht]
            rw [hd] at hj
            simp only [List.zipWith_cons_cons, List.flatten_cons, List.append_assoc]
            rw [← hj, hs, List.append_assoc]
      · rintro ⟨h, junk, hs, hj⟩
        cases h with
        | @cons w _ ws' _ h1 h2 =>
          have hs' : s = w ++ p ++ ((List.zipWith (· ++ ·) ws' ps).flatten ++ junk) := by rw [hs]; simp
          have hf := find_append w p ((List.zipWith (· ++ ·) ws' ps).flatten ++ junk) hp h1
          rw [hs', hf]
          have hd : (w ++ p ++ ((List.zipWith (· ++ ·) ws' ps).flatten ++ junk)).drop (w.length + p.length) = (List.zipWith (· ++ ·) ws' ps).flatten ++ junk := by
            have : w.length + p.length = (w ++ p).length := by simp
            rw [this, List.drop_left]
          simp only [hd]
          rw [(ih hwf' _ ws').2 ⟨h2, junk, rfl, fun h => hj ((hlast _ rfl).2 h)⟩]
          simp [List.append_assoc]

end Foxes.Factory
