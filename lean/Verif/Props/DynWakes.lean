import Verif.Model.DynWakes
import Mathlib.Tactic.Linarith
import Mathlib.Tactic.NormNum
import Mathlib.Tactic.Positivity
import Mathlib.Tactic.ByContra
import Mathlib.Algebra.Order.Ring.Rat
import Mathlib.Data.Finset.Prod
import Mathlib.Data.Finset.Card
import Mathlib.Data.Fintype.Basic
import Mathlib.Logic.Function.Iterate
import Mathlib.Tactic.Ring
import Mathlib.Tactic.IntervalCases
/-
C52: time dependent wakes. Specification: `traj i a` is where a wake point that left the turbine in state `i` is after `a` time steps, and the length of its path: it moves with the ambient
wind of the states i, i+1, ... at the place where it is. `Chunks cs N` says that the chunks divide the states 0..N-1. `Reach` are the stores that can occur in any run: chunks are
run in any order, any number of times, either on the shared store, or on a copy of any earlier store with only the chunk's own entries handed back.
-/
namespace Foxes.Props.DynWakes
open Foxes.DynWakes

set_option linter.unusedSectionVars false
variable {P K : Type} [Field K] [LinearOrder K]

/-- the point that left the turbine in state `i`, after `a` steps: place and length of the path -/
def traj (par : Par P K) (i : ℕ) : ℕ → P × K
  | 0 => (par.rotor i, 0)
  | a + 1 => (par.wind (i + a) (traj par i a).1, (traj par i a).2 + par.len (i + a) (traj par i a).1)

/-- the chunks (first state, number of states) divide the states 0..N-1 -/
structure Chunks (cs : List (ℕ × ℕ)) (N : ℕ) : Prop where
  pos : ∀ c ∈ cs, 0 < c.2
  inside : ∀ c ∈ cs, c.1 + c.2 ≤ N
  disjoint : ∀ c ∈ cs, ∀ d ∈ cs, c = d ∨ c.1 + c.2 ≤ d.1 ∨ d.1 + d.2 ≤ c.1
  cover : ∀ t < N, ∃ c ∈ cs, c.1 ≤ t ∧ t < c.1 + c.2

/-- stores that can occur in a run -/
inductive Reach (par : Par P K) (cs : List (ℕ × ℕ)) : Store P K → Prop
  | empty : Reach par cs Store.empty
  | shared (S : Store P K) (c : ℕ × ℕ) : Reach par cs S → c ∈ cs → Reach par cs (runChunk par S c.1 c.2).store
  | remote (S V : Store P K) (c : ℕ × ℕ) : Reach par cs S → Reach par cs V → c ∈ cs → Reach par cs (mergeCell S (runChunk par V c.1 c.2).store c.1 c.2)

/-! ### Tables -/

/-- facts about all tables for the chunk (h, hn): values, range, and blocks of other chunks are filled as a whole -/
structure TableOK (par : Par P K) (cs : List (ℕ × ℕ)) (h hn : ℕ) (T : Table P K) : Prop where
  good : ∀ k a e, T k a = some e → e = traj par (h + k) a
  range : ∀ k a e, T k a = some e → k < hn ∧ a < par.maxAge
  aon : ∀ c ∈ cs, h + hn ≤ c.1 → ∀ k < hn, ∀ a, c.1 < h + k + a → h + k + a ≤ c.1 + c.2 → a < par.maxAge → (T k a).isSome = (T k (c.1 + 1 - (h + k))).isSome

/-- the chunk's own part is complete up to the maximal length -/
def OwnPart (par : Par P K) (h hn : ℕ) (T : Table P K) : Prop :=
  ∀ k < hn, ∀ a, k + a ≤ hn → a < par.maxAge → (a = 0 ∨ (traj par (h + k) (a - 1)).2 < par.maxLen) → (T k a).isSome

omit [LinearOrder K] in
lemma traj_succ (par : Par P K) (i a : ℕ) : traj par i (a + 1) = move par (i + a) (traj par i a) := rfl

variable [IsStrictOrderedRing K]

lemma traj_mono (par : Par P K) (hlen : ∀ t p, 0 ≤ par.len t p) (i a b : ℕ) (h : a ≤ b) : (traj par i a).2 ≤ (traj par i b).2 := by
  induction b with
  | zero => simp_all
  | succ b ih =>
    rcases Nat.lt_or_ge a (b + 1) with h1 | h1
    · have := ih (by omega)
      have := hlen (i + b) (traj par i b).1
      show _ ≤ (traj par i b).2 + par.len (i + b) (traj par i b).1
      linarith
    · have : a = b + 1 := by omega
      rw [this]

omit [IsStrictOrderedRing K] in
/-- the loop over ages fills all ages up to some `A` -/
lemma ageLoop_form (par : Par P K) (i0 n : ℕ) (fuel age : ℕ) (T : Table P K) (hage : age ≤ n)
    (hT : ∀ k a, T k a = if k < n ∧ a ≤ age ∧ k + a ≤ n then some (traj par (i0 + k) a) else none) :
    ∃ A, age ≤ A ∧ A ≤ age + fuel ∧ A ≤ n ∧
      (∀ k a, ageLoop par i0 n fuel age T k a = if k < n ∧ a ≤ A ∧ k + a ≤ n then some (traj par (i0 + k) a) else none) ∧
      (A = age + fuel ∨ A = n ∨ ∀ k < n, k + A ≤ n → par.maxLen ≤ (traj par (i0 + k) A).2) := by
  induction fuel generalizing age T with
  | zero => exact ⟨age, le_refl _, le_refl _, hage, hT, Or.inl rfl⟩
  | succ fuel ih =>
    by_cases hn : age = n
    · exact ⟨age, le_refl _, by omega, hage, by simpa [ageLoop, hn] using hn ▸ hT, Or.inr (Or.inl hn)⟩
    · have hT' : ∀ k a, ageStep par i0 n age T k a = if k < n ∧ a ≤ age + 1 ∧ k + a ≤ n then some (traj par (i0 + k) a) else none := by
        intro k a
        unfold ageStep
        by_cases h1 : a = age + 1 ∧ k < n - age
        · obtain ⟨rfl, h2⟩ := h1
          have e1 : k < n ∧ age ≤ age ∧ k + age ≤ n := by omega
          have e2 : k < n ∧ age + 1 ≤ age + 1 ∧ k + (age + 1) ≤ n := by omega
          rw [if_pos ⟨rfl, h2⟩, hT, if_pos e1, if_pos e2, traj_succ]
          simp [Nat.add_right_comm]
        · rw [if_neg h1, hT]
          by_cases h2 : k < n ∧ a ≤ age ∧ k + a ≤ n
          · rw [if_pos h2, if_pos (by omega)]
          · rw [if_neg h2, if_neg (by omega)]
      by_cases hl : longEnough par n age (ageStep par i0 n age T)
      · refine ⟨age + 1, by omega, by omega, by omega, by simpa [ageLoop, hn, hl] using hT', Or.inr (Or.inr ?_)⟩
        intro k hk hkA
        unfold longEnough at hl
        rw [Bool.and_eq_true, List.all_eq_true] at hl
        have := hl.2 k (List.mem_range.2 hk)
        rw [hT', if_pos (by omega)] at this
        simpa using this
      · obtain ⟨A, h1, h2, h3, h4, h5⟩ := ih (age + 1) _ (by omega) hT'
        refine ⟨A, by omega, by omega, h3, by simpa [ageLoop, hn, hl] using h4, ?_⟩
        rcases h5 with h5 | h5
        · exact Or.inl (by omega)
        · exact Or.inr h5

omit [IsStrictOrderedRing K] in
lemma own_form (par : Par P K) (i0 n : ℕ) :
    ∃ A, A ≤ par.maxAge - 1 ∧ (∀ k a, ownWakes par i0 n k a = if k < n ∧ a ≤ A ∧ k + a ≤ n then some (traj par (i0 + k) a) else none) ∧
      (A = par.maxAge - 1 ∨ A = n ∨ ∀ k < n, k + A ≤ n → par.maxLen ≤ (traj par (i0 + k) A).2) := by
  obtain ⟨A, _, h2, _, h4, h5⟩ := ageLoop_form par i0 n (par.maxAge - 1) 0 (start par i0 n) (Nat.zero_le _) (by
    intro k a
    unfold start
    by_cases h : k < n ∧ a = 0
    · rw [if_pos h, if_pos (by omega)]
      obtain ⟨_, rfl⟩ := h
      rfl
    · rw [if_neg h, if_neg (by omega)])
  exact ⟨A, by omega, h4, by simpa using h5⟩

omit [IsStrictOrderedRing K] in
lemma own_ok (par : Par P K) (cs : List (ℕ × ℕ)) (hM : 0 < par.maxAge) (i0 n : ℕ) : TableOK par cs i0 n (ownWakes par i0 n) := by
  obtain ⟨A, h1, h2, _⟩ := own_form par i0 n
  refine ⟨?_, ?_, ?_⟩
  · intro k a e he
    rw [h2] at he
    split at he
    · simpa using he.symm
    · simp at he
  · intro k a e he
    rw [h2] at he
    split at he
    · omega
    · simp at he
  · intro c _ hc k hk a ha1 _ _
    rw [h2, h2, if_neg (by omega), if_neg (by omega)]

lemma own_part (par : Par P K) (hlen : ∀ t p, 0 ≤ par.len t p) (i0 n : ℕ) : OwnPart par i0 n (ownWakes par i0 n) := by
  obtain ⟨A, h1, h2, h3⟩ := own_form par i0 n
  intro k hk a hka ha hshort
  have : a ≤ A := by
    rcases h3 with h3 | h3 | h3
    · omega
    · omega
    · by_contra hlt
      have h4 := h3 k hk (by omega)
      rcases hshort with h5 | h5
      · omega
      · have := traj_mono par hlen (i0 + k) A (a - 1) (by omega)
        linarith
  rw [h2, if_pos (by omega)]
  rfl

omit [IsStrictOrderedRing K] in
lemma carry_form (par : Par P K) (i k m t a : ℕ) (T : Table P K) (ht : i + a = t) (ha : a < par.maxAge - 1) :
    ∀ k' a', carry par k m t a (traj par i a) T k' a' =
      if k' = k ∧ a < a' ∧ a' ≤ a + m ∧ a' ≤ par.maxAge - 1 then some (traj par i a') else T k' a' := by
  induction m generalizing t a T with
  | zero =>
    intro k' a'
    rw [if_neg (by omega)]
    rfl
  | succ m ih =>
    intro k' a'
    have he : move par t (traj par i a) = traj par i (a + 1) := by rw [traj_succ, ht]
    unfold carry
    simp only [he]
    by_cases hc : m ≠ 0 ∧ a + 1 < par.maxAge - 1
    · rw [if_pos hc, ih (t + 1) (a + 1) _ (by omega) hc.2]
      by_cases h1 : k' = k ∧ a + 1 < a' ∧ a' ≤ a + 1 + m ∧ a' ≤ par.maxAge - 1
      · rw [if_pos h1, if_pos (by omega)]
      · rw [if_neg h1]
        by_cases h2 : k' = k ∧ a' = a + 1
        · rw [if_pos h2, if_pos (by omega), h2.2]
        · rw [if_neg h2, if_neg (by omega)]
    · rw [if_neg hc]
      by_cases h2 : k' = k ∧ a' = a + 1
      · rw [if_pos h2, if_pos (by omega), h2.2]
      · rw [if_neg h2, if_neg (by omega)]

/-- a wake of an earlier chunk that is continued -/
def Sel (par : Par P K) (i0 h : ℕ) (T : Table P K) (k : ℕ) : Prop :=
  i0 - (h + k) < par.maxAge - 1 ∧ (∃ e, T k (i0 - (h + k)) = some e ∧ e.2 ≤ par.maxLen) ∧ T k (i0 - (h + k) + 1) = none

open scoped Classical in
omit [IsStrictOrderedRing K] in
lemma carryRow_form (par : Par P K) (i0 n h : ℕ) (T : Table P K) (k : ℕ) (hk : h + k ≤ i0) (hg : ∀ a e, T k a = some e → e = traj par (h + k) a) :
    ∀ k' a', carryRow par i0 n h T k k' a' =
      if k' = k ∧ Sel par i0 h T k ∧ i0 - (h + k) < a' ∧ a' ≤ i0 - (h + k) + n ∧ a' ≤ par.maxAge - 1 then some (traj par (h + k) a') else T k' a' := by
  intro k' a'
  unfold carryRow
  by_cases h1 : i0 - (h + k) < par.maxAge - 1
  · rw [if_pos h1]
    cases h2 : T k (i0 - (h + k)) with
    | none =>
      have : ¬ Sel par i0 h T k := by rintro ⟨_, ⟨e, he, _⟩, _⟩; simp [h2] at he
      simp [this]
    | some e =>
      cases h3 : T k (i0 - (h + k) + 1) with
      | some e' =>
        have : ¬ Sel par i0 h T k := by rintro ⟨_, _, hn⟩; simp [h3] at hn
        simp [this]
      | none =>
        simp only
        by_cases h4 : e.2 ≤ par.maxLen
        · have hs : Sel par i0 h T k := ⟨h1, ⟨e, h2, h4⟩, h3⟩
          rw [if_pos h4, hg _ _ h2, carry_form par (h + k) k n i0 _ T (by omega) h1]
          simp only [hs, true_and]
        · have : ¬ Sel par i0 h T k := by
            rintro ⟨_, ⟨e', he, hl⟩, _⟩
            rw [h2] at he
            simp at he
            subst he
            exact h4 hl
          simp [this, h4]
  · have : ¬ Sel par i0 h T k := by rintro ⟨hx, _⟩; exact h1 hx
    simp [h1, this]

open scoped Classical in
omit [IsStrictOrderedRing K] in
lemma carryChunk_form (par : Par P K) (i0 n h hn : ℕ) (T : Table P K) (hh : h + hn ≤ i0) (hg : ∀ k a e, T k a = some e → e = traj par (h + k) a) :
    ∀ k a, carryChunk par i0 n h hn T k a =
      if k < hn ∧ Sel par i0 h T k ∧ i0 - (h + k) < a ∧ a ≤ i0 - (h + k) + n ∧ a ≤ par.maxAge - 1 then some (traj par (h + k) a) else T k a := by
  induction hn with
  | zero => intro k a; simp [carryChunk]
  | succ m ih =>
    intro k a
    have ihm := ih (by omega)
    unfold carryChunk at ihm ⊢
    rw [List.range_succ, List.foldl_append]
    simp only [List.foldl_cons, List.foldl_nil]
    have hrow : ∀ a, (List.range m).foldl (carryRow par i0 n h) T m a = T m a := by intro a; rw [ihm, if_neg (by omega)]
    rw [carryRow_form par i0 n h _ m (by omega) (by intro a e he; rw [hrow] at he; exact hg _ _ _ he)]
    have hsel : Sel par i0 h ((List.range m).foldl (carryRow par i0 n h) T) m ↔ Sel par i0 h T m := by
      unfold Sel; rw [hrow, hrow]
    rw [ihm]
    by_cases hkm : k = m
    · subst hkm
      by_cases h1 : Sel par i0 h T k ∧ i0 - (h + k) < a ∧ a ≤ i0 - (h + k) + n ∧ a ≤ par.maxAge - 1
      · rw [if_pos ⟨rfl, hsel.2 h1.1, h1.2⟩, if_pos ⟨by omega, h1⟩]
      · rw [if_neg (by rintro ⟨_, x, y⟩; exact h1 ⟨hsel.1 x, y⟩), if_neg (by omega), if_neg (by rintro ⟨_, x⟩; exact h1 x)]
    · rw [if_neg (by rintro ⟨x, _⟩; exact hkm x)]
      by_cases h1 : k < m ∧ Sel par i0 h T k ∧ i0 - (h + k) < a ∧ a ≤ i0 - (h + k) + n ∧ a ≤ par.maxAge - 1
      · rw [if_pos h1, if_pos ⟨by omega, h1.2⟩]
      · rw [if_neg h1, if_neg (by rintro ⟨x, y⟩; exact h1 ⟨by omega, y⟩)]

open scoped Classical in
omit [IsStrictOrderedRing K] in
/-- the update for an earlier chunk -/
lemma newPart_ok (par : Par P K) (cs : List (ℕ × ℕ)) (N : ℕ) (hcs : Chunks cs N) (c d : ℕ × ℕ) (hc : c ∈ cs) (hdc : d.1 + d.2 ≤ c.1)
    (T : Table P K) (hT : TableOK par cs d.1 d.2 T) : TableOK par cs d.1 d.2 (newPart T (carryChunk par c.1 c.2 d.1 d.2 T)) := by
  have hf := carryChunk_form par c.1 c.2 d.1 d.2 T hdc hT.good
  have hv : ∀ k a, newPart T (carryChunk par c.1 c.2 d.1 d.2 T) k a =
      if (T k a).isNone ∧ k < d.2 ∧ Sel par c.1 d.1 T k ∧ c.1 - (d.1 + k) < a ∧ a ≤ c.1 - (d.1 + k) + c.2 ∧ a ≤ par.maxAge - 1 then some (traj par (d.1 + k) a) else none := by
    intro k a
    unfold newPart
    by_cases h1 : (T k a).isNone
    · rw [if_pos h1, hf]
      by_cases h2 : k < d.2 ∧ Sel par c.1 d.1 T k ∧ c.1 - (d.1 + k) < a ∧ a ≤ c.1 - (d.1 + k) + c.2 ∧ a ≤ par.maxAge - 1
      · rw [if_pos h2, if_pos ⟨h1, h2⟩]
      · rw [if_neg h2, if_neg (by rintro ⟨_, x⟩; exact h2 x)]
        simpa using h1
    · rw [if_neg h1, if_neg (by rintro ⟨x, _⟩; exact h1 x)]
  refine ⟨?_, ?_, ?_⟩
  · intro k a e he
    rw [hv] at he
    split at he
    · simpa using he.symm
    · simp at he
  · intro k a e he
    rw [hv] at he
    split at he
    · rename_i hx
      obtain ⟨_, h1, ⟨h2, _⟩, _⟩ := hx
      omega
    · simp at he
  · intro c' hc' hlow k hk a ha1 ha2 haM
    rw [hv, hv]
    rcases hcs.disjoint c hc c' hc' with rfl | hdis | hdis
    · have e0 : c.1 - (d.1 + k) + 1 = c.1 + 1 - (d.1 + k) := by omega
      by_cases hs : Sel par c.1 d.1 T k
      · have hnone : T k (c.1 + 1 - (d.1 + k)) = none := e0 ▸ hs.2.2
        have hall : (T k a).isSome = false := by rw [hT.aon c hc hdc k hk a ha1 ha2 haM, hnone]; rfl
        have hnone' : (T k a).isNone := by simpa using hall
        have hp := hcs.pos c hc
        have h1 := hs.1
        rw [if_pos ⟨hnone', hk, hs, by omega, by omega, by omega⟩, if_pos ⟨by simp [hnone], hk, hs, by omega, by omega, by omega⟩]
        rfl
      · rw [if_neg (by rintro ⟨_, _, x, _⟩; exact hs x), if_neg (by rintro ⟨_, _, x, _⟩; exact hs x)]
    · have hp := hcs.pos c' hc'
      rw [if_neg (by rintro ⟨_, _, _, x⟩; omega), if_neg (by rintro ⟨_, _, _, x⟩; omega)]
    · have hp := hcs.pos c hc
      have hp' := hcs.pos c' hc'
      rw [if_neg (by rintro ⟨_, _, _, x⟩; omega), if_neg (by rintro ⟨_, _, _, x⟩; omega)]

omit [IsStrictOrderedRing K] [Field K] [LinearOrder K] in
lemma fill_some (T u : Table P K) (k a : ℕ) : (fill T u k a).isSome = ((T k a).isSome || (u k a).isSome) := by
  unfold fill
  cases T k a <;> simp

omit [IsStrictOrderedRing K] in
lemma fill_ok (par : Par P K) (cs : List (ℕ × ℕ)) (h hn : ℕ) (T u : Table P K) (hT : TableOK par cs h hn T) (hu : TableOK par cs h hn u) :
    TableOK par cs h hn (fill T u) := by
  refine ⟨?_, ?_, ?_⟩
  · intro k a e he
    unfold fill at he
    cases h1 : T k a with
    | none => rw [h1] at he; exact hu.good k a e he
    | some x => rw [h1] at he; simp at he; subst he; exact hT.good k a _ h1
  · intro k a e he
    unfold fill at he
    cases h1 : T k a with
    | none => rw [h1] at he; exact hu.range k a e he
    | some x => exact hT.range k a _ h1
  · intro c hc hlow k hk a h1 h2 h3
    rw [fill_some, fill_some, hT.aon c hc hlow k hk a h1 h2 h3, hu.aon c hc hlow k hk a h1 h2 h3]

omit [IsStrictOrderedRing K] in
lemma apply_ok (par : Par P K) (cs : List (ℕ × ℕ)) (i0 n : ℕ) (upd : ℕ → Option (Table P K)) (hu : ∀ j u, upd j = some u → TableOK par cs i0 n u)
    (js : List ℕ) (r : Table P K × Bool) (hr : TableOK par cs i0 n r.1) (ho : OwnPart par i0 n r.1) :
    TableOK par cs i0 n (applyUpdates par upd i0 n js r).1 ∧ OwnPart par i0 n (applyUpdates par upd i0 n js r).1 := by
  induction js generalizing r with
  | nil => exact ⟨hr, ho⟩
  | cons j js ih =>
    obtain ⟨T, b⟩ := r
    unfold applyUpdates
    split
    · cases h1 : upd j with
      | none => simpa [h1] using ih (T, b) hr ho
      | some u =>
        simp only
        split
        · refine ih _ (fill_ok par cs i0 n T u hr (hu j u h1)) ?_
          intro k hk a h2 h3 h4
          rw [fill_some, ho k hk a h2 h3 h4]
          rfl
        · exact ih (T, b) hr ho
    · exact ih (T, b) hr ho

omit [IsStrictOrderedRing K] [Field K] [LinearOrder K] in
lemma apply_quiet (par : Par P K) (i0 n : ℕ) (upd : ℕ → Option (Table P K)) (js : List ℕ) (r : Table P K × Bool)
    (h : (applyUpdates par upd i0 n js r).2 = false) : r.2 = false ∧ (applyUpdates par upd i0 n js r).1 = r.1 := by
  induction js generalizing r with
  | nil => exact ⟨h, rfl⟩
  | cons j js ih =>
    obtain ⟨T, b⟩ := r
    unfold applyUpdates at h ⊢
    split at h
    · rename_i hj
      rw [if_pos hj]
      cases h1 : upd j with
      | none => simp only [h1] at h ⊢; exact ih (T, b) h
      | some u =>
        simp only [h1] at h ⊢
        split at h
        · have := (ih _ h).1
          simp at this
        · rename_i hn
          rw [if_neg hn]
          exact ih (T, b) h
    · rename_i hj
      rw [if_neg hj]
      exact ih (T, b) h

/-! ### Stores -/

/-- what holds of every store of a run -/
structure Inv (par : Par P K) (cs : List (ℕ × ℕ)) (S : Store P K) : Prop where
  cells : ∀ c ∈ S.cells, c ∈ cs
  listed : ∀ c ∈ cs, (S.data c.1).isSome → c ∈ S.cells
  data : ∀ h T, S.data h = some T → ∃ hn, (h, hn) ∈ cs ∧ TableOK par cs h hn T ∧ OwnPart par h hn T
  upd : ∀ j h u, S.upd j h = some u → ∃ hn, (h, hn) ∈ cs ∧ TableOK par cs h hn u

lemma chunk_unique {cs : List (ℕ × ℕ)} {N : ℕ} (hcs : Chunks cs N) {h n m : ℕ} (h1 : (h, n) ∈ cs) (h2 : (h, m) ∈ cs) : n = m := by
  have p1 := hcs.pos _ h1
  have p2 := hcs.pos _ h2
  rcases hcs.disjoint _ h1 _ h2 with h | h | h
  · simpa using h
  · simp at h p1; omega
  · simp at h p2; omega

omit [IsStrictOrderedRing K] [Field K] [LinearOrder K] in
lemma earlier_mem (S : Store P K) (fuel i0 : ℕ) (q : ℕ × ℕ × Table P K) (hq : q ∈ earlier S fuel i0) (hpos : ∀ c ∈ S.cells, 0 < c.2) :
    (q.1, q.2.1) ∈ S.cells ∧ S.data q.1 = some q.2.2 ∧ q.1 + q.2.1 ≤ i0 := by
  induction fuel generalizing i0 with
  | zero => simp [earlier] at hq
  | succ fuel ih =>
    unfold earlier at hq
    cases hf : S.cells.find? (fun c => decide (c.1 + c.2 = i0)) with
    | none => simp [hf] at hq
    | some c =>
      obtain ⟨h, m⟩ := c
      have hmem := List.mem_of_find?_eq_some hf
      have hp := List.find?_some hf
      simp at hp
      simp only [hf] at hq
      cases hd : S.data h with
      | none => simp [hd] at hq
      | some T =>
        simp only [hd, List.mem_cons] at hq
        rcases hq with rfl | hq
        · exact ⟨hmem, hd, by simp; omega⟩
        · have := ih h hq
          have := hpos _ hmem
          refine ⟨by tauto, by tauto, ?_⟩
          omega

/-- parts of a run, for the proofs: chunks in the store, the chunk's table, the store before updates for others are added, earlier chunks with their continuation -/
def rCells (S : Store P K) (i0 n : ℕ) : List (ℕ × ℕ) := if S.cells.any (fun c => decide (c.1 = i0)) then S.cells else S.cells ++ [(i0, n)]

def rStart (par : Par P K) (S : Store P K) (i0 n : ℕ) : Table P K × Bool := match S.data i0 with | some T => (T, false) | none => (ownWakes par i0 n, true)

def rOwn (par : Par P K) (S : Store P K) (i0 n : ℕ) : Table P K × Bool :=
  applyUpdates par (fun j => S.upd j i0) i0 n ((rCells S i0 n).map Prod.fst) (rStart par S i0 n)

def rS1 (par : Par P K) (S : Store P K) (i0 n : ℕ) : Store P K :=
  ⟨rCells S i0 n, fun h => if h = i0 then some (rOwn par S i0 n).1 else S.data h, fun j h => if h = i0 ∧ i0 < j then none else S.upd j h⟩

def rBefore (par : Par P K) (S : Store P K) (i0 n : ℕ) : List (ℕ × ℕ × Table P K) := earlier (rS1 par S i0 n) (i0 + 1) i0

def rExt (par : Par P K) (S : Store P K) (i0 n : ℕ) : List (ℕ × ℕ × Table P K) :=
  (rBefore par S i0 n).map (fun q => (q.1, q.2.1, carryChunk par i0 n q.1 q.2.1 q.2.2))

def rChanged (par : Par P K) (S : Store P K) (i0 n : ℕ) : List ((ℕ × ℕ × Table P K) × (ℕ × ℕ × Table P K)) :=
  ((rBefore par S i0 n).zip (rExt par S i0 n)).filter (fun z => anyNew par z.1.2.1 z.1.2.2 z.2.2.2)

lemma run_cells (par : Par P K) (S : Store P K) (i0 n : ℕ) : (runChunk par S i0 n).store.cells = rCells S i0 n := rfl

lemma run_data (par : Par P K) (S : Store P K) (i0 n h : ℕ) :
    (runChunk par S i0 n).store.data h = if h = i0 then some (rOwn par S i0 n).1 else S.data h := rfl

lemma run_upd (par : Par P K) (S : Store P K) (i0 n j h : ℕ) :
    (runChunk par S i0 n).store.upd j h = if j = i0 then
      match (rChanged par S i0 n).find? (fun z => decide (z.1.1 = h)) with
      | some z => some (newPart z.1.2.2 z.2.2.2)
      | none => (rS1 par S i0 n).upd j h
    else (rS1 par S i0 n).upd j h := rfl

lemma run_blocked (par : Par P K) (S : Store P K) (i0 n : ℕ) : (runChunk par S i0 n).blocked = ((rOwn par S i0 n).2 || !(rChanged par S i0 n).isEmpty) := rfl

lemma run_tables (par : Par P K) (S : Store P K) (i0 n : ℕ) : (runChunk par S i0 n).tables = (rExt par S i0 n).reverse ++ [(i0, n, (rOwn par S i0 n).1)] := rfl

lemma rCells_sub {cs : List (ℕ × ℕ)} (S : Store P K) (c : ℕ × ℕ) (hc : c ∈ cs) (hS : ∀ d ∈ S.cells, d ∈ cs) : ∀ d ∈ rCells S c.1 c.2, d ∈ cs := by
  intro d hd
  unfold rCells at hd
  split at hd
  · exact hS d hd
  · rw [List.mem_append, List.mem_singleton] at hd
    rcases hd with hd | rfl
    · exact hS d hd
    · exact hc

lemma rCells_self {cs : List (ℕ × ℕ)} {N : ℕ} (hcs : Chunks cs N) (S : Store P K) (c : ℕ × ℕ) (hc : c ∈ cs) (hS : ∀ d ∈ S.cells, d ∈ cs) : c ∈ rCells S c.1 c.2 := by
  unfold rCells
  split
  · rename_i h
    rw [List.any_eq_true] at h
    obtain ⟨d, hd, he⟩ := h
    have he : d.1 = c.1 := by simpa using he
    have : d.2 = c.2 := chunk_unique hcs (h := c.1) (by have := hS d hd; rw [← he]; exact this) hc
    have : d = c := Prod.ext he this
    exact this ▸ hd
  · simp

lemma rCells_mono (S : Store P K) (i0 n : ℕ) (d : ℕ × ℕ) (hd : d ∈ S.cells) : d ∈ rCells S i0 n := by
  unfold rCells
  split
  · exact hd
  · exact List.mem_append_left _ hd

lemma rOwn_ok (par : Par P K) (hM : 0 < par.maxAge) (hlen : ∀ t p, 0 ≤ par.len t p) {cs : List (ℕ × ℕ)} {N : ℕ} (hcs : Chunks cs N) (S : Store P K) (hS : Inv par cs S)
    (c : ℕ × ℕ) (hc : c ∈ cs) : TableOK par cs c.1 c.2 (rOwn par S c.1 c.2).1 ∧ OwnPart par c.1 c.2 (rOwn par S c.1 c.2).1 := by
  have h0 : TableOK par cs c.1 c.2 (rStart par S c.1 c.2).1 ∧ OwnPart par c.1 c.2 (rStart par S c.1 c.2).1 := by
    unfold rStart
    cases h : S.data c.1 with
    | none => exact ⟨own_ok par cs hM _ _, own_part par hlen _ _⟩
    | some T =>
      obtain ⟨hn, h1, h2, h3⟩ := hS.data _ _ h
      rw [chunk_unique hcs hc h1]
      exact ⟨h2, h3⟩
  unfold rOwn
  apply apply_ok par cs c.1 c.2 _ _ _ _ h0.1 h0.2
  intro j u hu
  obtain ⟨hn, h1, h2⟩ := hS.upd _ _ _ hu
  rw [chunk_unique hcs hc h1]
  exact h2

/-- facts about the earlier chunks of a run -/
lemma before_ok (par : Par P K) {cs : List (ℕ × ℕ)} {N : ℕ} (hcs : Chunks cs N) (S : Store P K) (hS : Inv par cs S)
    (c : ℕ × ℕ) (hc : c ∈ cs) (q : ℕ × ℕ × Table P K) (hq : q ∈ rBefore par S c.1 c.2) :
    (q.1, q.2.1) ∈ cs ∧ q.1 + q.2.1 ≤ c.1 ∧ TableOK par cs q.1 q.2.1 q.2.2 ∧ S.data q.1 = some q.2.2 := by
  have hsub := rCells_sub S c hc hS.cells
  obtain ⟨h1, h2, h3⟩ := earlier_mem _ _ _ q hq (fun d hd => hcs.pos d (hsub d hd))
  have hm := hsub _ h1
  have hp := hcs.pos _ hm
  simp only at hp
  have hne : q.1 ≠ c.1 := by omega
  have h2' : S.data q.1 = some q.2.2 := by simpa [rS1, hne] using h2
  obtain ⟨hn, g1, g2, _⟩ := hS.data _ _ h2'
  rw [chunk_unique hcs hm g1]
  exact ⟨g1, by rw [← chunk_unique hcs hm g1]; exact h3, g2, h2'⟩

lemma changed_mem (par : Par P K) (S : Store P K) (i0 n : ℕ) (z : (ℕ × ℕ × Table P K) × (ℕ × ℕ × Table P K)) (hz : z ∈ (rBefore par S i0 n).zip (rExt par S i0 n)) :
    z.1 ∈ rBefore par S i0 n ∧ z.2 = (z.1.1, z.1.2.1, carryChunk par i0 n z.1.1 z.1.2.1 z.1.2.2) := by
  unfold rExt at hz
  obtain ⟨k, hk⟩ := List.mem_iff_getElem?.1 hz
  rw [List.getElem?_zip_eq_some, List.getElem?_map] at hk
  obtain ⟨h1, h2⟩ := hk
  rw [h1] at h2
  simp at h2
  exact ⟨List.mem_of_getElem? h1, h2.symm⟩

lemma inv_run (par : Par P K) (hM : 0 < par.maxAge) (hlen : ∀ t p, 0 ≤ par.len t p) {cs : List (ℕ × ℕ)} {N : ℕ} (hcs : Chunks cs N) (S : Store P K) (hS : Inv par cs S)
    (c : ℕ × ℕ) (hc : c ∈ cs) : Inv par cs (runChunk par S c.1 c.2).store := by
  refine ⟨?_, ?_, ?_, ?_⟩
  · rw [run_cells]; exact rCells_sub S c hc hS.cells
  · intro d hd hs
    rw [run_cells]
    rw [run_data] at hs
    split at hs
    · rename_i he
      have : d = c := Prod.ext he (chunk_unique hcs (h := c.1) (by rw [← he]; exact hd) hc)
      rw [this]
      exact rCells_self hcs S c hc hS.cells
    · exact rCells_mono S _ _ d (hS.listed d hd hs)
  · intro h T hT
    rw [run_data] at hT
    split at hT
    · rename_i he
      simp at hT
      subst hT
      subst he
      exact ⟨c.2, hc, rOwn_ok par hM hlen hcs S hS c hc⟩
    · exact hS.data h T hT
  · have hold : ∀ j h u, (rS1 par S c.1 c.2).upd j h = some u → ∃ hn, (h, hn) ∈ cs ∧ TableOK par cs h hn u := by
      intro j h u hu
      unfold rS1 at hu
      simp only at hu
      split at hu
      · simp at hu
      · exact hS.upd j h u hu
    intro j h u hu
    rw [run_upd] at hu
    split at hu
    · cases hf : (rChanged par S c.1 c.2).find? (fun z => decide (z.1.1 = h)) with
      | none => rw [hf] at hu; exact hold j h u hu
      | some z =>
        rw [hf] at hu
        simp at hu
        have hz := List.mem_of_find?_eq_some hf
        have he := List.find?_some hf
        simp at he
        unfold rChanged at hz
        obtain ⟨h1, h2⟩ := changed_mem par S c.1 c.2 z (List.mem_filter.1 hz).1
        obtain ⟨g1, g2, g3, _⟩ := before_ok par hcs S hS c hc _ h1
        refine ⟨z.1.2.1, by rw [← he]; exact g1, ?_⟩
        rw [← hu, h2, ← he]
        exact newPart_ok par cs N hcs c (z.1.1, z.1.2.1) hc g2 z.1.2.2 g3
    · exact hold j h u hu

lemma inv_merge (par : Par P K) {cs : List (ℕ × ℕ)} {N : ℕ} (hcs : Chunks cs N) (S R : Store P K) (hS : Inv par cs S) (hR : Inv par cs R)
    (c : ℕ × ℕ) (hc : c ∈ cs) : Inv par cs (mergeCell S R c.1 c.2) := by
  have hcells : (mergeCell S R c.1 c.2).cells = rCells S c.1 c.2 := rfl
  refine ⟨?_, ?_, ?_, ?_⟩
  · rw [hcells]; exact rCells_sub S c hc hS.cells
  · intro d hd hs
    rw [hcells]
    unfold mergeCell at hs
    simp only at hs
    split at hs
    · rename_i he
      have : d = c := Prod.ext he (chunk_unique hcs (h := c.1) (by rw [← he]; exact hd) hc)
      rw [this]
      exact rCells_self hcs S c hc hS.cells
    · exact rCells_mono S _ _ d (hS.listed d hd hs)
  · intro h T hT
    unfold mergeCell at hT
    simp only at hT
    split at hT
    · exact hR.data h T hT
    · exact hS.data h T hT
  · intro j h u hu
    unfold mergeCell at hu
    simp only at hu
    split at hu
    · exact hR.upd j h u hu
    · exact hS.upd j h u hu

lemma inv_reach (par : Par P K) (hM : 0 < par.maxAge) (hlen : ∀ t p, 0 ≤ par.len t p) {cs : List (ℕ × ℕ)} {N : ℕ} (hcs : Chunks cs N) (S : Store P K) (h : Reach par cs S) :
    Inv par cs S := by
  induction h with
  | empty => exact ⟨by simp [Store.empty], by simp [Store.empty], by simp [Store.empty], by simp [Store.empty]⟩
  | shared S c _ hc ih => exact inv_run par hM hlen hcs S ih c hc
  | remote S V c _ _ hc ihS ihV => exact inv_merge par hcs S _ ihS (inv_run par hM hlen hcs V ihV c hc) c hc

/-- C52 (safety): whatever the chunks, the engine and the order of runs, every wake point that a chunk ever uses is the point that left the turbine in the named state and drifted with
the ambient wind of the following states; its length is the length of that path. -/
theorem C52_points_true (par : Par P K) (hM : 0 < par.maxAge) (hlen : ∀ t p, 0 ≤ par.len t p) (cs : List (ℕ × ℕ)) (N : ℕ) (hcs : Chunks cs N) (S : Store P K)
    (hS : Reach par cs S) (c : ℕ × ℕ) (hc : c ∈ cs) (i a : ℕ) (e : P × K) (he : entry (runChunk par S c.1 c.2).tables i a = some e) :
    e = traj par i a := by
  have hI := inv_reach par hM hlen hcs S hS
  unfold entry at he
  rw [Option.bind_eq_some_iff] at he
  obtain ⟨q, hq, hqe⟩ := he
  have hmem := List.mem_of_find?_eq_some hq
  have hin := List.find?_some hq
  simp only [decide_eq_true_eq] at hin
  have hi : q.1 + (i - q.1) = i := by omega
  rw [run_tables, List.mem_append, List.mem_singleton, List.mem_reverse] at hmem
  rcases hmem with hmem | rfl
  · unfold rExt at hmem
    rw [List.mem_map] at hmem
    obtain ⟨p, hp, rfl⟩ := hmem
    obtain ⟨_, g2, g3, _⟩ := before_ok par hcs S hI c hc p hp
    simp only at hqe hi hin
    rw [carryChunk_form par c.1 c.2 p.1 p.2.1 p.2.2 g2 g3.good] at hqe
    split at hqe
    · simp at hqe
      rw [← hqe, hi]
    · have := g3.good _ _ _ hqe
      rw [this, hi]
  · have := (rOwn_ok par hM hlen hcs S hI c hc).1.good _ _ _ hqe
    rw [this, hi]

lemma anyNew_false (par : Par P K) (n : ℕ) (old new : Table P K) (h : anyNew par n old new = false) (k a : ℕ) (hk : k < n) (ha : a < par.maxAge)
    (ho : old k a = none) : new k a = none := by
  unfold anyNew at h
  rw [List.any_eq_false] at h
  have h1 := h k (List.mem_range.2 hk)
  rw [Bool.not_eq_true, List.any_eq_false] at h1
  have h2 := h1 a (List.mem_range.2 ha)
  simpa [ho] using h2

/-- all earlier chunks are visited if all have tables -/
lemma earlier_all {cs : List (ℕ × ℕ)} {N : ℕ} (hcs : Chunks cs N) (S : Store P K) (hsub : ∀ d ∈ S.cells, d ∈ cs) (hall : ∀ d ∈ cs, d ∈ S.cells)
    (hdata : ∀ d ∈ cs, (S.data d.1).isSome) (d : ℕ × ℕ) (hd : d ∈ cs) (fuel : ℕ) (c : ℕ × ℕ) (hc : c ∈ cs) (hf : c.1 < fuel) (hdc : d.1 + d.2 ≤ c.1) :
    ∃ T, S.data d.1 = some T ∧ (d.1, d.2, T) ∈ earlier S fuel c.1 := by
  induction fuel generalizing c with
  | zero => omega
  | succ fuel ih =>
    have hdp := hcs.pos d hd
    have hcp := hcs.pos c hc
    have hci := hcs.inside c hc
    obtain ⟨g, hg, hg1, hg2⟩ := hcs.cover (c.1 - 1) (by omega)
    have hge : g.1 + g.2 = c.1 := by
      rcases hcs.disjoint g hg c hc with rfl | h | h
      · omega
      · omega
      · omega
    have hfind : ∃ g', S.cells.find? (fun x => decide (x.1 + x.2 = c.1)) = some g' := by
      cases hx : S.cells.find? (fun x => decide (x.1 + x.2 = c.1)) with
      | some g' => exact ⟨g', rfl⟩
      | none =>
        have := List.find?_eq_none.1 hx g (hall g hg)
        simp [hge] at this
    obtain ⟨g', hg'⟩ := hfind
    have hg'c := hsub _ (List.mem_of_find?_eq_some hg')
    have hg'e := List.find?_some hg'
    simp at hg'e
    have hgp := hcs.pos g hg
    have hg'p := hcs.pos g' hg'c
    have heq : g' = g := by
      rcases hcs.disjoint g' hg'c g hg with h | h | h
      · exact h
      · omega
      · omega
    subst heq
    obtain ⟨T, hT⟩ := Option.isSome_iff_exists.1 (hdata g' hg)
    have hun : earlier S (fuel + 1) c.1 = (g'.1, g'.2, T) :: earlier S fuel g'.1 := by
      conv_lhs => unfold earlier
      simp only [hg']
      simp only [hT]
    rw [hun]
    rcases hcs.disjoint d hd g' hg with rfl | h | h
    · exact ⟨T, hT, by simp⟩
    · obtain ⟨T', h1, h2⟩ := ih g' hg (by omega) h
      exact ⟨T', h1, List.mem_cons_of_mem _ h2⟩
    · omega

/-- C52 (convergence): when all chunks have run and a round brings nothing new (no chunk blocks the convergence), then every wake point exists that is not older than the maximal age, was not
beyond the maximal length one step before, and belongs to the run's time span. -/
theorem C52_points_complete (par : Par P K) (hM : 0 < par.maxAge) (hlen : ∀ t p, 0 ≤ par.len t p) (cs : List (ℕ × ℕ)) (N : ℕ) (hcs : Chunks cs N) (S : Store P K)
    (hS : Reach par cs S) (hall : ∀ c ∈ cs, (S.data c.1).isSome)
    (hquiet : ∀ c ∈ cs, ∃ V, Reach par cs V ∧ V.data = S.data ∧ (runChunk par V c.1 c.2).blocked = false)
    (d : ℕ × ℕ) (hd : d ∈ cs) (k a : ℕ) (hk : k < d.2) (ha : a < par.maxAge) (htime : d.1 + k + a ≤ N)
    (hshort : a = 0 ∨ (traj par (d.1 + k) (a - 1)).2 < par.maxLen) :
    ∃ T, S.data d.1 = some T ∧ T k a = some (traj par (d.1 + k) a) := by
  have hI := inv_reach par hM hlen hcs S hS
  obtain ⟨T, hT⟩ := Option.isSome_iff_exists.1 (hall d hd)
  refine ⟨T, hT, ?_⟩
  obtain ⟨hn, hm, hok, hown⟩ := hI.data _ _ hT
  obtain rfl : hn = d.2 := chunk_unique hcs hm hd
  suffices hsome : ∀ a, a < par.maxAge → d.1 + k + a ≤ N → (a = 0 ∨ (traj par (d.1 + k) (a - 1)).2 < par.maxLen) → (T k a).isSome by
    obtain ⟨e, he⟩ := Option.isSome_iff_exists.1 (hsome a ha htime hshort)
    rw [he, hok.good _ _ _ he]
  clear ha htime hshort a
  intro a
  induction a using Nat.strong_induction_on with
  | _ a ih =>
    intro ha htime hshort
    by_cases hin : k + a ≤ d.2
    · exact hown k hk a hin ha hshort
    · -- the step was made in state t = d.1 + k + a - 1, which belongs to a later chunk
      obtain ⟨c, hc, hc1, hc2⟩ := hcs.cover (d.1 + k + a - 1) (by omega)
      have hdc : d.1 + d.2 ≤ c.1 := by
        have := hcs.pos c hc
        have := hcs.pos d hd
        rcases hcs.disjoint d hd c hc with rfl | h | h
        · omega
        · exact h
        · omega
      have hlt : (traj par (d.1 + k) (a - 1)).2 < par.maxLen := by
        rcases hshort with h | h
        · omega
        · exact h
      have hag : (T k (c.1 - (d.1 + k))).isSome := by
        apply ih _ (by omega) (by omega) (by omega)
        rcases Nat.eq_zero_or_pos (c.1 - (d.1 + k)) with h | h
        · exact Or.inl h
        · right
          have := traj_mono par hlen (d.1 + k) (c.1 - (d.1 + k) - 1) (a - 1) (by omega)
          linarith
      have haon := hok.aon c hc hdc k hk a (by omega) (by omega) ha
      rw [haon]
      by_contra hnone
      -- then chunk c would bring something new
      obtain ⟨V, hV, hVd, hVb⟩ := hquiet c hc
      have hIV := inv_reach par hM hlen hcs V hV
      rw [run_blocked, Bool.or_eq_false_iff] at hVb
      obtain ⟨hb1, hb2⟩ := hVb
      have hstart : ∃ Tc, V.data c.1 = some Tc := by rw [hVd]; exact Option.isSome_iff_exists.1 (hall c hc)
      obtain ⟨Tc, hTc⟩ := hstart
      have hq := apply_quiet par c.1 c.2 (fun j => V.upd j c.1) _ _ hb1
      have hown1 : (rOwn par V c.1 c.2).1 = Tc := by
        have h1 : (rOwn par V c.1 c.2).1 = (rStart par V c.1 c.2).1 := hq.2
        rw [h1]
        simp [rStart, hTc]
      have hS1d : (rS1 par V c.1 c.2).data = S.data := by
        funext x
        simp only [rS1, hown1]
        split
        · rename_i hx
          rw [hx, ← hVd, hTc]
        · rw [hVd]
      have hcells : ∀ x ∈ cs, x ∈ (rS1 par V c.1 c.2).cells := by
        intro x hx
        exact rCells_mono V _ _ x (hIV.listed x hx (by rw [hVd]; exact hall x hx))
      have hsub := rCells_sub V c hc hIV.cells
      obtain ⟨T', hT', hmem⟩ := earlier_all hcs (rS1 par V c.1 c.2) hsub hcells (by intro x hx; rw [hS1d]; exact hall x hx) d hd (c.1 + 1) c hc (by omega) hdc
      rw [hS1d, hT] at hT'
      obtain rfl : T = T' := by simpa using hT'
      have hz : ((d.1, d.2, T), (d.1, d.2, carryChunk par c.1 c.2 d.1 d.2 T)) ∈ (rBefore par V c.1 c.2).zip (rExt par V c.1 c.2) := by
        obtain ⟨n, hn⟩ := List.mem_iff_getElem?.1 hmem
        apply List.mem_iff_getElem?.2
        refine ⟨n, ?_⟩
        have hn' : (rBefore par V c.1 c.2)[n]? = some (d.1, d.2, T) := hn
        rw [List.getElem?_zip_eq_some]
        refine ⟨hn', ?_⟩
        unfold rExt
        rw [List.getElem?_map, hn']
        rfl
      have hnew : anyNew par d.2 T (carryChunk par c.1 c.2 d.1 d.2 T) = false := by
        by_contra hne
        rw [Bool.not_eq_false] at hne
        have : ((d.1, d.2, T), (d.1, d.2, carryChunk par c.1 c.2 d.1 d.2 T)) ∈ rChanged par V c.1 c.2 := by
          unfold rChanged
          rw [List.mem_filter]
          exact ⟨hz, hne⟩
        have h2 : rChanged par V c.1 c.2 = [] := by simpa using hb2
        rw [h2] at this
        simp at this
      have hnone' : T k (c.1 + 1 - (d.1 + k)) = none := by simpa using hnone
      have hx := anyNew_false par d.2 T _ hnew k (c.1 + 1 - (d.1 + k)) hk (by omega) hnone'
      have e0 : c.1 - (d.1 + k) + 1 = c.1 + 1 - (d.1 + k) := by omega
      obtain ⟨e, he⟩ := Option.isSome_iff_exists.1 hag
      have hsel : Sel par c.1 d.1 T k := by
        refine ⟨by omega, ⟨e, he, ?_⟩, by rw [e0]; exact hnone'⟩
        rw [hok.good _ _ _ he]
        have := traj_mono par hlen (d.1 + k) (c.1 - (d.1 + k)) (a - 1) (by omega)
        linarith
      have hp := hcs.pos c hc
      rw [carryChunk_form par c.1 c.2 d.1 d.2 T hdc hok.good, if_pos ⟨hk, hsel, by omega, by omega, by omega⟩] at hx
      simp at hx

/-! ### Rounds -/

/-- entry (k, a) of the table of chunk `h` is there -/
def Filled (S : Store P K) (h k a : ℕ) : Prop := ∃ T, S.data h = some T ∧ (T k a).isSome

lemma apply_mono (par : Par P K) (i0 n : ℕ) (upd : ℕ → Option (Table P K)) (js : List ℕ) (r : Table P K × Bool) (k a : ℕ) (h : (r.1 k a).isSome) :
    ((applyUpdates par upd i0 n js r).1 k a).isSome := by
  induction js generalizing r with
  | nil => exact h
  | cons j js ih =>
    obtain ⟨T, b⟩ := r
    unfold applyUpdates
    split
    · cases h1 : upd j with
      | none => exact ih (T, b) h
      | some u =>
        simp only
        split
        · exact ih _ (by rw [fill_some]; simp at h; simp [h])
        · exact ih (T, b) h
    · exact ih (T, b) h

lemma apply_upd (par : Par P K) (i0 n : ℕ) (upd : ℕ → Option (Table P K)) (js : List ℕ) (r : Table P K × Bool) (j : ℕ) (hj : j ∈ js) (hij : i0 < j) (u : Table P K)
    (hu : upd j = some u) (k a : ℕ) (hk : k < n) (ha : a < par.maxAge) (h : (u k a).isSome) : ((applyUpdates par upd i0 n js r).1 k a).isSome := by
  induction js generalizing r with
  | nil => simp at hj
  | cons j' js ih =>
    obtain ⟨T, b⟩ := r
    rcases List.mem_cons.1 hj with rfl | hj
    · unfold applyUpdates
      rw [if_pos hij, hu]
      simp only
      apply apply_mono
      split
      · rw [fill_some, h]; simp
      · rename_i hn
        rw [Bool.not_eq_true] at hn
        by_contra hc
        have := anyNew_false par n T u hn k a hk ha (by simpa using hc)
        rw [this] at h
        simp at h
    · unfold applyUpdates
      split
      · cases upd j' with
        | none => exact ih _ hj
        | some u' => exact ih _ hj
      · exact ih _ hj

lemma apply_new (par : Par P K) (i0 n : ℕ) (upd : ℕ → Option (Table P K)) (js : List ℕ) (r : Table P K × Bool) (hr : r.2 = false)
    (hb : (applyUpdates par upd i0 n js r).2 = true) :
    ∃ k < n, ∃ a < par.maxAge, r.1 k a = none ∧ ((applyUpdates par upd i0 n js r).1 k a).isSome := by
  induction js generalizing r with
  | nil => rw [applyUpdates, hr] at hb; simp at hb
  | cons j js ih =>
    obtain ⟨T, b⟩ := r
    unfold applyUpdates at hb ⊢
    split at hb
    · rename_i hj
      rw [if_pos hj]
      cases h1 : upd j with
      | none => simp only [h1] at hb ⊢; exact ih (T, b) hr hb
      | some u =>
        simp only [h1] at hb ⊢
        by_cases hn : anyNew par n T u
        · rw [if_pos hn]
          unfold anyNew at hn
          rw [List.any_eq_true] at hn
          obtain ⟨k, hk, h2⟩ := hn
          rw [List.any_eq_true] at h2
          obtain ⟨a, ha, h3⟩ := h2
          rw [Bool.and_eq_true] at h3
          refine ⟨k, List.mem_range.1 hk, a, List.mem_range.1 ha, by simpa using h3.1, ?_⟩
          apply apply_mono
          rw [fill_some, h3.2]
          simp
        · rw [if_neg hn] at hb ⊢
          exact ih (T, b) hr hb
    · rename_i hj
      rw [if_neg hj]
      exact ih (T, b) hr hb

/-- the table of a run's chunk keeps what was there -/
lemma run_mono (par : Par P K) (S : Store P K) (i0 n h k a : ℕ) (hf : Filled S h k a) : Filled (runChunk par S i0 n).store h k a := by
  obtain ⟨T, hT, hs⟩ := hf
  unfold Filled
  rw [run_data]
  split
  · rename_i he
    refine ⟨_, rfl, ?_⟩
    apply apply_mono
    simp [rStart, ← he, hT, hs]
  · exact ⟨T, hT, hs⟩

/-- a run that blocks brings a new entry: in its own table, or in an update for an earlier chunk -/
lemma run_new (par : Par P K) (hM : 0 < par.maxAge) (hlen : ∀ t p, 0 ≤ par.len t p) {cs : List (ℕ × ℕ)} {N : ℕ} (hcs : Chunks cs N) (S : Store P K) (hS : Inv par cs S)
    (c : ℕ × ℕ) (hc : c ∈ cs) (hb : (runChunk par S c.1 c.2).blocked = true) :
    (∃ k < c.2, ∃ a < par.maxAge, ¬ Filled S c.1 k a ∧ Filled (runChunk par S c.1 c.2).store c.1 k a) ∨
    (∃ d ∈ cs, d.1 + d.2 ≤ c.1 ∧ ∃ k < d.2, ∃ a < par.maxAge, ¬ Filled S d.1 k a ∧
      ∃ u, (runChunk par S c.1 c.2).store.upd c.1 d.1 = some u ∧ (u k a).isSome) := by
  have hp := hcs.pos c hc
  rw [run_blocked, Bool.or_eq_true] at hb
  rcases hb with hb | hb
  · left
    cases hd : S.data c.1 with
    | none =>
      refine ⟨0, hp, 0, hM, ?_, ?_⟩
      · rintro ⟨T, hT, _⟩
        rw [hd] at hT
        simp at hT
      · refine ⟨_, by rw [run_data, if_pos rfl], ?_⟩
        exact (rOwn_ok par hM hlen hcs S hS c hc).2 0 hp 0 (by omega) hM (Or.inl rfl)
    | some T =>
      have h0 : rStart par S c.1 c.2 = (T, false) := by simp [rStart, hd]
      obtain ⟨k, hk, a, ha, h1, h2⟩ := apply_new par c.1 c.2 (fun j => S.upd j c.1) ((rCells S c.1 c.2).map Prod.fst) (rStart par S c.1 c.2) (by rw [h0]) hb
      refine ⟨k, hk, a, ha, ?_, ⟨(rOwn par S c.1 c.2).1, by rw [run_data, if_pos rfl], h2⟩⟩
      rintro ⟨T', hT', hs⟩
      rw [hd] at hT'
      simp at hT'
      subst hT'
      rw [h0] at h1
      simp only at h1
      rw [h1] at hs
      simp at hs
  · right
    have hne : rChanged par S c.1 c.2 ≠ [] := by simpa using hb
    obtain ⟨z, hz⟩ := List.exists_mem_of_ne_nil _ hne
    have hz' := hz
    unfold rChanged at hz'
    obtain ⟨hz1, hz2⟩ := changed_mem par S c.1 c.2 z (List.mem_filter.1 hz').1
    -- the first entry for the same chunk is what is stored
    obtain ⟨y, hy⟩ : ∃ y, (rChanged par S c.1 c.2).find? (fun x => decide (x.1.1 = z.1.1)) = some y := by
      cases hx : (rChanged par S c.1 c.2).find? (fun x => decide (x.1.1 = z.1.1)) with
      | some y => exact ⟨y, rfl⟩
      | none =>
        have := List.find?_eq_none.1 hx z hz
        simp at this
    have hym := List.mem_of_find?_eq_some hy
    have hye := List.find?_some hy
    simp only [decide_eq_true_eq] at hye
    unfold rChanged at hym
    obtain ⟨hy1, hy2⟩ := changed_mem par S c.1 c.2 y (List.mem_filter.1 hym).1
    have hyn := (List.mem_filter.1 hym).2
    obtain ⟨g1, g2, g3, g4⟩ := before_ok par hcs S hS c hc _ hy1
    refine ⟨(y.1.1, y.1.2.1), g1, g2, ?_⟩
    unfold anyNew at hyn
    rw [List.any_eq_true] at hyn
    obtain ⟨k, hk, h2⟩ := hyn
    rw [List.any_eq_true] at h2
    obtain ⟨a, ha, h3⟩ := h2
    rw [Bool.and_eq_true] at h3
    refine ⟨k, List.mem_range.1 hk, a, List.mem_range.1 ha, ?_, newPart y.1.2.2 y.2.2.2, ?_, ?_⟩
    · rintro ⟨T', hT', hs⟩
      simp only at hT'
      rw [g4] at hT'
      simp at hT'
      subst hT'
      have := h3.1
      rw [Option.isNone_iff_eq_none] at this
      rw [this] at hs
      simp at hs
    · rw [run_upd, if_pos rfl]
      simp only
      rw [hye, hy]
    · unfold newPart
      rw [if_pos h3.1]
      exact h3.2

/-- an update waits for its chunk, or has been applied -/
def Pending (S : Store P K) (j h k a : ℕ) : Prop := Filled S h k a ∨ ∃ u, S.upd j h = some u ∧ (u k a).isSome

/-- runs of other chunks keep it -/
lemma pending_run (par : Par P K) (S : Store P K) (i0 n j h k a : ℕ) (hj : i0 ≠ j) (hh : i0 ≠ h) (hp : Pending S j h k a) :
    Pending (runChunk par S i0 n).store j h k a := by
  rcases hp with hp | ⟨u, hu, hs⟩
  · exact Or.inl (run_mono par S i0 n h k a hp)
  · refine Or.inr ⟨u, ?_, hs⟩
    rw [run_upd, if_neg (fun h => hj h.symm)]
    simp only [rS1]
    rw [if_neg (fun h => hh h.1.symm)]
    exact hu

/-- the run of the chunk itself applies it -/
lemma pending_apply (par : Par P K) (S : Store P K) (c : ℕ × ℕ) (d : ℕ × ℕ) (hc : c ∈ S.cells) (hdc : d.1 < c.1) (k a : ℕ) (hk : k < d.2) (ha : a < par.maxAge)
    (hp : Pending S c.1 d.1 k a) : Filled (runChunk par S d.1 d.2).store d.1 k a := by
  rcases hp with hp | ⟨u, hu, hs⟩
  · exact run_mono par S _ _ _ k a hp
  · refine ⟨_, by rw [run_data, if_pos rfl], ?_⟩
    unfold rOwn
    refine apply_upd par d.1 d.2 _ _ _ c.1 ?_ hdc u hu k a hk ha hs
    rw [List.mem_map]
    exact ⟨c, rCells_mono S _ _ c hc, rfl⟩

/-- the store after a list of runs -/
def runs (par : Par P K) (S : Store P K) (l : List (ℕ × ℕ)) : Store P K := l.foldl (fun X c => (runChunk par X c.1 c.2).store) S

lemma runs_append (par : Par P K) (S : Store P K) (l m : List (ℕ × ℕ)) : runs par S (l ++ m) = runs par (runs par S l) m := List.foldl_append

lemma runs_mono (par : Par P K) (l : List (ℕ × ℕ)) (S : Store P K) (h k a : ℕ) (hf : Filled S h k a) : Filled (runs par S l) h k a := by
  induction l generalizing S with
  | nil => exact hf
  | cons c l ih => exact ih _ (run_mono par S _ _ h k a hf)

lemma runs_inv (par : Par P K) (hM : 0 < par.maxAge) (hlen : ∀ t p, 0 ≤ par.len t p) {cs : List (ℕ × ℕ)} {N : ℕ} (hcs : Chunks cs N) (l : List (ℕ × ℕ)) (hl : ∀ c ∈ l, c ∈ cs)
    (S : Store P K) (hS : Inv par cs S) : Inv par cs (runs par S l) := by
  induction l generalizing S with
  | nil => exact hS
  | cons c l ih => exact ih (fun d hd => hl d (List.mem_cons_of_mem _ hd)) _ (inv_run par hM hlen hcs S hS c (hl c (List.mem_cons_self ..)))

lemma runs_reach (par : Par P K) {cs : List (ℕ × ℕ)} (l : List (ℕ × ℕ)) (hl : ∀ c ∈ l, c ∈ cs)
    (S : Store P K) (hS : Reach par cs S) : Reach par cs (runs par S l) := by
  induction l generalizing S with
  | nil => exact hS
  | cons c l ih => exact ih (fun d hd => hl d (List.mem_cons_of_mem _ hd)) _ (Reach.shared S c hS (hl c (List.mem_cons_self ..)))

lemma runs_pending (par : Par P K) (l : List (ℕ × ℕ)) (S : Store P K) (j h k a : ℕ) (hl : ∀ c ∈ l, c.1 ≠ j ∧ c.1 ≠ h) (hp : Pending S j h k a) :
    Pending (runs par S l) j h k a := by
  induction l generalizing S with
  | nil => exact hp
  | cons c l ih =>
    exact ih _ (fun d hd => hl d (List.mem_cons_of_mem _ hd)) (pending_run par S _ _ j h k a (hl c (List.mem_cons_self ..)).1 (hl c (List.mem_cons_self ..)).2 hp)

lemma runs_cells (par : Par P K) (l : List (ℕ × ℕ)) (S : Store P K) (d : ℕ × ℕ) (hd : d ∈ S.cells) : d ∈ (runs par S l).cells := by
  induction l generalizing S with
  | nil => exact hd
  | cons c l ih => exact ih _ (by rw [run_cells]; exact rCells_mono S _ _ d hd)

lemma round_store (par : Par P K) (cs : List (ℕ × ℕ)) (S : Store P K) : (roundShared par cs S).1 = runs par S cs := by
  have : ∀ (l : List (ℕ × ℕ)) (S : Store P K) (b : Bool), (l.foldl (fun r c => ((runChunk par r.1 c.1 c.2).store, r.2 || (runChunk par r.1 c.1 c.2).blocked)) (S, b)).1 = runs par S l := by
    intro l
    induction l with
    | nil => intro S b; rfl
    | cons c l ih => intro S b; exact ih _ _
  exact this cs S false

lemma round_blocked (par : Par P K) (cs : List (ℕ × ℕ)) (S : Store P K) :
    (roundShared par cs S).2 = true ↔ ∃ l1 c l2, cs = l1 ++ c :: l2 ∧ (runChunk par (runs par S l1) c.1 c.2).blocked = true := by
  have : ∀ (l : List (ℕ × ℕ)) (S : Store P K) (b : Bool),
      (l.foldl (fun r c => ((runChunk par r.1 c.1 c.2).store, r.2 || (runChunk par r.1 c.1 c.2).blocked)) (S, b)).2 = true ↔
      b = true ∨ ∃ l1 c l2, l = l1 ++ c :: l2 ∧ (runChunk par (runs par S l1) c.1 c.2).blocked = true := by
    intro l
    induction l with
    | nil => intro S b; simp
    | cons x l ih =>
      intro S b
      rw [List.foldl_cons, ih]
      constructor
      · rintro (h | ⟨l1, c, l2, h1, h2⟩)
        · rw [Bool.or_eq_true] at h
          rcases h with h | h
          · exact Or.inl h
          · exact Or.inr ⟨[], x, l, rfl, h⟩
        · exact Or.inr ⟨x :: l1, c, l2, by rw [h1]; rfl, h2⟩
      · rintro (h | ⟨l1, c, l2, h1, h2⟩)
        · simp [h]
        · cases l1 with
          | nil =>
            obtain ⟨rfl, rfl⟩ : x = c ∧ l = l2 := by simpa using h1
            left
            have : (runChunk par S x.1 x.2).blocked = true := h2
            simp [this]
          | cons y l1 =>
            obtain ⟨rfl, rfl⟩ : x = y ∧ l = l1 ++ c :: l2 := by simpa using h1
            exact Or.inr ⟨l1, c, l2, rfl, h2⟩
  rw [roundShared, this]
  simp

/-- two rounds after a blocked one, there is a new entry -/
lemma round_progress (par : Par P K) (hM : 0 < par.maxAge) (hlen : ∀ t p, 0 ≤ par.len t p) {cs : List (ℕ × ℕ)} {N : ℕ} (hcs : Chunks cs N)
    (hsort : cs.Pairwise (fun c d => c.1 + c.2 ≤ d.1)) (S : Store P K) (hS : Inv par cs S) (hb : (roundShared par cs S).2 = true) :
    ∃ d ∈ cs, ∃ k < d.2, ∃ a < par.maxAge, ¬ Filled S d.1 k a ∧ Filled (runs par (runs par S cs) cs) d.1 k a := by
  obtain ⟨l1, c, l2, hl, hcb⟩ := (round_blocked par cs S).1 hb
  have hc : c ∈ cs := by rw [hl]; simp
  have hX := runs_inv par hM hlen hcs l1 (fun x hx => by rw [hl]; simp [hx]) S hS
  have hfin : runs par (runs par S cs) cs = runs par (runs par (runChunk par (runs par S l1) c.1 c.2).store l2) cs := by
    conv_lhs => rw [show runs par S cs = runs par S (l1 ++ c :: l2) from by rw [← hl]]
    rw [runs_append]
    rfl
  rcases run_new par hM hlen hcs (runs par S l1) hX c hc hcb with ⟨k, hk, a, ha, h1, h2⟩ | ⟨d, hd, hdc, k, hk, a, ha, h1, u, hu, hs⟩
  · refine ⟨c, hc, k, hk, a, ha, fun hx => h1 (runs_mono par l1 S _ k a hx), ?_⟩
    rw [hfin]
    exact runs_mono par _ _ _ k a (runs_mono par _ _ _ k a h2)
  · refine ⟨d, hd, k, hk, a, ha, fun hx => h1 (runs_mono par l1 S _ k a hx), ?_⟩
    rw [hfin]
    -- d comes before c in the list
    have hdp := hcs.pos d hd
    have hcp := hcs.pos c hc
    have hdl1 : d ∈ l1 := by
      rw [hl] at hd
      rw [List.mem_append, List.mem_cons] at hd
      rcases hd with hd | rfl | hd
      · exact hd
      · omega
      · rw [hl, List.pairwise_append] at hsort
        have := (List.pairwise_cons.1 hsort.2.1).1 d hd
        omega
    obtain ⟨p1, p2, hp⟩ := List.append_of_mem hdl1
    have hsplit : cs = p1 ++ d :: (p2 ++ c :: l2) := by rw [hl, hp]; simp
    have hpend : Pending (runChunk par (runs par S l1) c.1 c.2).store c.1 d.1 k a := Or.inr ⟨u, hu, hs⟩
    have hl2 : ∀ x ∈ l2, x.1 ≠ c.1 ∧ x.1 ≠ d.1 := by
      intro x hx
      rw [hl, List.pairwise_append] at hsort
      have := (List.pairwise_cons.1 hsort.2.1).1 x hx
      omega
    have hp1 : ∀ x ∈ p1, x.1 ≠ c.1 ∧ x.1 ≠ d.1 := by
      intro x hx
      rw [hsplit, List.pairwise_append] at hsort
      have h1 := hsort.2.2 x hx d (by simp)
      have h2 := hsort.2.2 x hx c (by simp)
      have := hcs.pos x (by rw [hsplit]; simp [hx])
      omega
    have hq := runs_pending par p1 _ c.1 d.1 k a hp1 (runs_pending par l2 _ c.1 d.1 k a hl2 hpend)
    have hcell : c ∈ (runs par (runs par (runChunk par (runs par S l1) c.1 c.2).store l2) p1).cells := by
      apply runs_cells
      apply runs_cells
      rw [run_cells]
      exact rCells_self hcs _ c hc hX.cells
    have hfill := pending_apply par _ c d hcell (by omega) k a hk ha hq
    have : runs par (runs par (runChunk par (runs par S l1) c.1 c.2).store l2) cs =
        runs par (runChunk par (runs par (runs par (runChunk par (runs par S l1) c.1 c.2).store l2) p1) d.1 d.2).store (p2 ++ c :: l2) := by
      conv_lhs => rw [hsplit, runs_append]
      rfl
    rw [this]
    exact runs_mono par _ _ _ k a hfill

/-- a quiet run changes no table -/
lemma run_quiet (par : Par P K) (S : Store P K) (i0 n : ℕ) (hb : (runChunk par S i0 n).blocked = false) :
    (S.data i0).isSome ∧ (runChunk par S i0 n).store.data = S.data := by
  rw [run_blocked, Bool.or_eq_false_iff] at hb
  have hq := apply_quiet par i0 n (fun j => S.upd j i0) _ _ hb.1
  cases hd : S.data i0 with
  | none =>
    have : (rStart par S i0 n).2 = false := hq.1
    simp [rStart, hd] at this
  | some T =>
    refine ⟨rfl, ?_⟩
    have h1 : (rOwn par S i0 n).1 = (rStart par S i0 n).1 := hq.2
    have h2 : (rStart par S i0 n).1 = T := by simp [rStart, hd]
    funext h
    rw [run_data, h1, h2]
    split
    · rename_i hh
      rw [hh, hd]
    · rfl

lemma round_quiet (par : Par P K) (cs : List (ℕ × ℕ)) (S : Store P K) (hb : (roundShared par cs S).2 = false) (l1 l2 : List (ℕ × ℕ)) (hl : cs = l1 ++ l2) :
    (runs par S l1).data = S.data := by
  induction l1 using List.reverseRecOn generalizing l2 with
  | nil => rfl
  | append_singleton l1 c ih =>
    have h1 := ih (c :: l2) (by rw [hl]; simp)
    rw [runs_append]
    have h2 : (runChunk par (runs par S l1) c.1 c.2).blocked = false := by
      by_contra hne
      rw [Bool.not_eq_false] at hne
      have := (round_blocked par cs S).2 ⟨l1, c, l2, by rw [hl]; simp, hne⟩
      rw [this] at hb
      simp at hb
    exact (run_quiet par _ c.1 c.2 h2).2.trans h1

/-- the tables of a quiet run: all wake points in use -/
lemma used_complete (par : Par P K) (hM : 0 < par.maxAge) (hlen : ∀ t p, 0 ≤ par.len t p) (cs : List (ℕ × ℕ)) (N : ℕ) (hcs : Chunks cs N) (S : Store P K)
    (hS : Reach par cs S) (hall : ∀ c ∈ cs, (S.data c.1).isSome)
    (hquiet : ∀ c ∈ cs, ∃ V, Reach par cs V ∧ V.data = S.data ∧ (runChunk par V c.1 c.2).blocked = false)
    (V : Store P K) (hV : Reach par cs V) (hVd : V.data = S.data) (c : ℕ × ℕ) (hc : c ∈ cs) (hb : (runChunk par V c.1 c.2).blocked = false)
    (t a : ℕ) (ht : c.1 ≤ t ∧ t < c.1 + c.2) (ha : a < par.maxAge) (hat : a ≤ t) (hshort : a = 0 ∨ (traj par (t - a) (a - 1)).2 < par.maxLen) :
    entry (runChunk par V c.1 c.2).tables (t - a) a = some (traj par (t - a) a) := by
  have hIV := inv_reach par hM hlen hcs V hV
  have hcp := hcs.inside c hc
  obtain ⟨d, hd, hd1, hd2⟩ := hcs.cover (t - a) (by omega)
  have e0 : d.1 + (t - a - d.1) = t - a := by omega
  obtain ⟨T, hT, hTk⟩ := C52_points_complete par hM hlen cs N hcs S hS hall hquiet d hd (t - a - d.1) a (by omega) ha (by omega) (by rw [e0]; exact hshort)
  rw [e0] at hTk
  have hb' := hb
  rw [run_blocked, Bool.or_eq_false_iff] at hb'
  obtain ⟨-, hrd⟩ := run_quiet par V c.1 c.2 hb
  have hS1d : (rS1 par V c.1 c.2).data = S.data := by rw [← hVd, ← hrd]; rfl
  -- the table of d among the tables in use
  have hfind : ∃ q, (runChunk par V c.1 c.2).tables.find? (fun q => decide (q.1 ≤ t - a ∧ t - a < q.1 + q.2.1)) = some q ∧ q.1 = d.1 ∧ q.2.2 (t - a - d.1) a = some (traj par (t - a) a) := by
    have hex : ∃ q ∈ (runChunk par V c.1 c.2).tables, q.1 ≤ t - a ∧ t - a < q.1 + q.2.1 := by
      rw [run_tables]
      by_cases hdc : d.1 + d.2 ≤ c.1
      · have hcells : ∀ x ∈ cs, x ∈ (rS1 par V c.1 c.2).cells := by
          intro x hx
          exact rCells_mono V _ _ x (hIV.listed x hx (by rw [hVd]; exact hall x hx))
        have hsub := rCells_sub V c hc hIV.cells
        obtain ⟨T', hT', hmem⟩ := earlier_all hcs (rS1 par V c.1 c.2) hsub hcells (by intro x hx; rw [hS1d]; exact hall x hx) d hd (c.1 + 1) c hc (by omega) hdc
        refine ⟨(d.1, d.2, carryChunk par c.1 c.2 d.1 d.2 T'), ?_, hd1, hd2⟩
        rw [List.mem_append, List.mem_reverse]
        left
        unfold rExt
        rw [List.mem_map]
        exact ⟨_, hmem, rfl⟩
      · refine ⟨(c.1, c.2, (rOwn par V c.1 c.2).1), by simp, ?_⟩
        have : d = c := by
          rcases hcs.disjoint d hd c hc with h | h | h
          · exact h
          · omega
          · omega
        subst this
        exact ⟨hd1, hd2⟩
    cases hq : (runChunk par V c.1 c.2).tables.find? (fun q => decide (q.1 ≤ t - a ∧ t - a < q.1 + q.2.1)) with
    | none =>
      rw [List.find?_eq_none] at hq
      obtain ⟨q, hqm, hq1⟩ := hex
      exact absurd (by simpa using hq1) (hq q hqm)
    | some q =>
      refine ⟨q, rfl, ?_⟩
      have hmem := List.mem_of_find?_eq_some hq
      have hin := List.find?_some hq
      simp only [decide_eq_true_eq] at hin
      rw [run_tables, List.mem_append, List.mem_singleton, List.mem_reverse] at hmem
      rcases hmem with hmem | rfl
      · unfold rExt at hmem
        rw [List.mem_map] at hmem
        obtain ⟨p, hp, rfl⟩ := hmem
        obtain ⟨g1, g2, g3, g4⟩ := before_ok par hcs V hIV c hc p hp
        simp only at hin
        have hpd : (p.1, p.2.1) = d := by
          rcases hcs.disjoint _ g1 d hd with h | h | h
          · exact h
          · simp only at h; omega
          · simp only at h; omega
        have hp1 : p.1 = d.1 := by rw [← hpd]
        have hp2 : p.2.1 = d.2 := by rw [← hpd]
        refine ⟨hp1, ?_⟩
        simp only
        rw [carryChunk_form par c.1 c.2 p.1 p.2.1 p.2.2 g2 g3.good]
        split
        · rw [hp1, e0]
        · have hx : V.data d.1 = some p.2.2 := by rw [← hp1]; exact g4
          rw [← hVd, hx] at hT
          simp at hT
          rw [hT]
          exact hTk
      · simp only at hin
        have hpd : c = d := by
          rcases hcs.disjoint _ hc d hd with h | h | h
          · exact h
          · omega
          · omega
        subst hpd
        refine ⟨rfl, ?_⟩
        have : (rS1 par V c.1 c.2).data c.1 = some (rOwn par V c.1 c.2).1 := by simp [rS1]
        rw [hS1d, hT] at this
        simp at this
        simp only
        rw [← this]
        exact hTk
  obtain ⟨q, hq, hq1, hq2⟩ := hfind
  unfold entry
  rw [hq]
  simp only [Option.bind_some]
  rw [hq1]
  exact hq2

/-! ### Number of rounds -/

open scoped Classical in
/-- the filled places -/
noncomputable def places (M N : ℕ) (cs : List (ℕ × ℕ)) (S : Store P K) : Finset (ℕ × ℕ) :=
  (Finset.range N ×ˢ Finset.range M).filter (fun x => ∃ c ∈ cs, c.1 ≤ x.1 ∧ x.1 < c.1 + c.2 ∧ Filled S c.1 (x.1 - c.1) x.2)

omit [Field K] [LinearOrder K] [IsStrictOrderedRing K] in
lemma places_card (M N : ℕ) (cs : List (ℕ × ℕ)) (S : Store P K) : (places M N cs S).card ≤ N * M := by
  classical
  unfold places
  refine (Finset.card_le_card (Finset.filter_subset _ _)).trans ?_
  simp

omit [Field K] [LinearOrder K] [IsStrictOrderedRing K] in
lemma places_grow (M : ℕ) {cs : List (ℕ × ℕ)} {N : ℕ} (hcs : Chunks cs N) (S S' : Store P K) (hmono : ∀ h k a, Filled S h k a → Filled S' h k a)
    (hnew : ∃ d ∈ cs, ∃ k < d.2, ∃ a < M, ¬ Filled S d.1 k a ∧ Filled S' d.1 k a) : (places M N cs S).card + 1 ≤ (places M N cs S').card := by
  classical
  apply Nat.succ_le_of_lt
  apply Finset.card_lt_card
  rw [Finset.ssubset_iff_of_subset]
  · obtain ⟨d, hd, k, hk, a, ha, h1, h2⟩ := hnew
    have := hcs.inside d hd
    have e : d.1 + k - d.1 = k := by omega
    refine ⟨(d.1 + k, a), ?_, ?_⟩
    · unfold places
      rw [Finset.mem_filter, Finset.mem_product, Finset.mem_range, Finset.mem_range]
      exact ⟨⟨by simp only; omega, ha⟩, d, hd, by simp only; omega, by simp only; omega, by simp only [e]; exact h2⟩
    · unfold places
      rw [Finset.mem_filter]
      rintro ⟨-, c, hc, hc1, hc2, hf⟩
      simp only at hc1 hc2 hf
      have : c = d := by
        rcases hcs.disjoint c hc d hd with h | h | h
        · exact h
        · omega
        · omega
      subst this
      rw [e] at hf
      exact h1 hf
  · intro x hx
    unfold places at hx ⊢
    rw [Finset.mem_filter] at hx ⊢
    obtain ⟨h0, c, hc, h1, h2, h3⟩ := hx
    exact ⟨h0, c, hc, h1, h2, hmono _ _ _ h3⟩

omit [Field K] [LinearOrder K] [IsStrictOrderedRing K] in
/-- an iteration that brings something new within two blocked rounds ends -/
lemma rounds_end (M N : ℕ) (cs : List (ℕ × ℕ)) (hcs : Chunks cs N) (f : Store P K → Store P K) (blk : Store P K → Bool) (I : Store P K → Prop) (hI : ∀ S, I S → I (f S))
    (hmono : ∀ S, I S → ∀ h k a, Filled S h k a → Filled (f S) h k a)
    (hprog : ∀ S, I S → blk S = true → ∃ d ∈ cs, ∃ k < d.2, ∃ a < M, ¬ Filled S d.1 k a ∧ Filled (f (f S)) d.1 k a) (S0 : Store P K) (h0 : I S0) :
    ∃ r ≤ 2 * N * M, blk (f^[r] S0) = false := by
  by_contra hne
  push Not at hne
  have hinv : ∀ r, I (f^[r] S0) := by
    intro r
    induction r with
    | zero => exact h0
    | succ r ih => rw [Function.iterate_succ_apply']; exact hI _ ih
  have key : ∀ j ≤ N * M + 1, j ≤ (places M N cs (f^[2 * j] S0)).card := by
    intro j
    induction j with
    | zero => intro _; omega
    | succ j ih =>
      intro hj
      have hb := hne (2 * j) (by
        have : 2 * j ≤ 2 * (N * M) := by omega
        calc 2 * j ≤ 2 * (N * M) := this
          _ = 2 * N * M := by ring)
      replace hb := Bool.eq_true_of_not_eq_false hb
      have hg := places_grow M hcs (f^[2 * j] S0) (f (f (f^[2 * j] S0))) (fun h k a hf => hmono _ (hI _ (hinv _)) _ _ _ (hmono _ (hinv _) _ _ _ hf))
        (hprog _ (hinv _) hb)
      have e : f^[2 * (j + 1)] S0 = f (f (f^[2 * j] S0)) := by
        rw [show 2 * (j + 1) = 2 * j + 1 + 1 from by ring, Function.iterate_succ_apply', Function.iterate_succ_apply']
      rw [e]
      have := ih (by omega)
      omega
  have h1 := key (N * M + 1) le_rfl
  have h2 := places_card M N cs (f^[2 * (N * M + 1)] S0)
  omega

/-- C52 (one process): with chunks in the order of time, the iteration is no longer blocked after at most 2 x (number of states) x (maximal age) rounds, and then every chunk sees, in each of
its states, all wake points that are not older than the maximal age and were not beyond the maximal length one step before. -/
theorem C52_converges_shared (par : Par P K) (hM : 0 < par.maxAge) (hlen : ∀ t p, 0 ≤ par.len t p) (cs : List (ℕ × ℕ)) (N : ℕ) (hcs : Chunks cs N)
    (hsort : cs.Pairwise (fun c d => c.1 + c.2 ≤ d.1)) :
    ∃ r ≤ 2 * N * par.maxAge, (roundShared par cs ((fun S => (roundShared par cs S).1)^[r] Store.empty)).2 = false ∧
      ∀ l1 c l2, cs = l1 ++ c :: l2 → ∀ t a, c.1 ≤ t → t < c.1 + c.2 → a < par.maxAge → a ≤ t → (a = 0 ∨ (traj par (t - a) (a - 1)).2 < par.maxLen) →
        entry (runChunk par (runs par ((fun S => (roundShared par cs S).1)^[r] Store.empty) l1) c.1 c.2).tables (t - a) a = some (traj par (t - a) a) := by
  obtain ⟨r, hr, hb⟩ := rounds_end par.maxAge N cs hcs (fun S => (roundShared par cs S).1) (fun S => (roundShared par cs S).2) (Reach par cs)
    (fun S hS => by rw [round_store]; exact runs_reach par cs (fun c hc => hc) S hS)
    (fun S _ h k a hf => by rw [round_store]; exact runs_mono par cs S h k a hf)
    (fun S hS hb => by
      rw [round_store, round_store]
      exact round_progress par hM hlen hcs hsort S (inv_reach par hM hlen hcs S hS) hb)
    Store.empty Reach.empty
  refine ⟨r, hr, hb, ?_⟩
  have hreach : ∀ r, Reach par cs ((fun S => (roundShared par cs S).1)^[r] Store.empty) := by
    intro r
    induction r with
    | zero => exact Reach.empty
    | succ r ih =>
      rw [Function.iterate_succ_apply']
      rw [round_store]
      exact runs_reach par cs (fun c hc => hc) _ ih
  have hS := hreach r
  revert hb hS
  generalize (fun S => (roundShared par cs S).1)^[r] Store.empty = S
  intro hb hS
  have hun : ∀ l1 c l2, cs = l1 ++ c :: l2 → (runChunk par (runs par S l1) c.1 c.2).blocked = false := by
    intro l1 c l2 hl
    by_contra hne
    rw [Bool.not_eq_false] at hne
    have := (round_blocked par cs S).2 ⟨l1, c, l2, hl, hne⟩
    rw [this] at hb
    simp at hb
  have hall : ∀ c ∈ cs, (S.data c.1).isSome := by
    intro c hc
    obtain ⟨l1, l2, hl⟩ := List.append_of_mem hc
    have := (run_quiet par _ c.1 c.2 (hun l1 c l2 hl)).1
    rwa [round_quiet par cs S hb l1 (c :: l2) hl] at this
  have hsub : ∀ l1 c l2, cs = l1 ++ c :: l2 → Reach par cs (runs par S l1) := fun l1 c l2 hl => runs_reach par l1 (fun x hx => by rw [hl]; simp [hx]) S hS
  have hquiet : ∀ c ∈ cs, ∃ V, Reach par cs V ∧ V.data = S.data ∧ (runChunk par V c.1 c.2).blocked = false := by
    intro c hc
    obtain ⟨l1, l2, hl⟩ := List.append_of_mem hc
    exact ⟨runs par S l1, hsub l1 c l2 hl, round_quiet par cs S hb l1 (c :: l2) hl, hun l1 c l2 hl⟩
  intro l1 c l2 hl t a h1 h2 ha hat hsh
  exact used_complete par hM hlen cs N hcs S hS hall hquiet (runs par S l1) (hsub l1 c l2 hl) (round_quiet par cs S hb l1 (c :: l2) hl) c (by rw [hl]; simp)
    (hun l1 c l2 hl) t a ⟨h1, h2⟩ ha hat hsh

/-! ### Rounds in other processes -/

/-- the store after some chunks handed back their entries, all having seen the store `V` -/
def hand (par : Par P K) (V : Store P K) (X : Store P K) (l : List (ℕ × ℕ)) : Store P K := l.foldl (fun X c => mergeCell X (runChunk par V c.1 c.2).store c.1 c.2) X

omit [IsStrictOrderedRing K] in
lemma hand_snoc (par : Par P K) (V X : Store P K) (l : List (ℕ × ℕ)) (c : ℕ × ℕ) :
    hand par V X (l ++ [c]) = mergeCell (hand par V X l) (runChunk par V c.1 c.2).store c.1 c.2 := by simp [hand]

lemma hand_reach (par : Par P K) {cs : List (ℕ × ℕ)} (V X : Store P K) (hV : Reach par cs V) (hX : Reach par cs X) (l : List (ℕ × ℕ)) (hl : ∀ c ∈ l, c ∈ cs) :
    Reach par cs (hand par V X l) := by
  induction l using List.reverseRecOn with
  | nil => exact hX
  | append_singleton l c ih =>
    rw [hand_snoc]
    exact Reach.remote _ V c (ih (fun d hd => hl d (by simp [hd]))) hV (hl c (by simp))

lemma hand_data (par : Par P K) {cs : List (ℕ × ℕ)} {N : ℕ} (hcs : Chunks cs N) (V X : Store P K) (l : List (ℕ × ℕ)) (hl : ∀ c ∈ l, c ∈ cs) :
    (∀ c ∈ l, (hand par V X l).data c.1 = (runChunk par V c.1 c.2).store.data c.1 ∧ ∀ h, (hand par V X l).upd c.1 h = (runChunk par V c.1 c.2).store.upd c.1 h) ∧
    (∀ h, (∀ c ∈ l, c.1 ≠ h) → (hand par V X l).data h = X.data h) := by
  induction l using List.reverseRecOn with
  | nil => exact ⟨by simp, fun h _ => rfl⟩
  | append_singleton l c ih =>
    have ih := ih (fun d hd => hl d (by simp [hd]))
    rw [hand_snoc]
    constructor
    · intro d hd
      by_cases hdc : d.1 = c.1
      · have : d = c := by
          have h2 := chunk_unique hcs (h := d.1) (n := d.2) (m := c.2) (hl d hd) (by rw [hdc]; exact hl c (by simp))
          exact Prod.ext hdc h2
        subst this
        simp [mergeCell]
      · have hd' : d ∈ l := by
          rw [List.mem_append, List.mem_singleton] at hd
          rcases hd with h | rfl
          · exact h
          · exact absurd rfl hdc
        constructor
        · simp only [mergeCell, if_neg hdc]
          exact (ih.1 d hd').1
        · intro h
          simp only [mergeCell, if_neg hdc]
          exact (ih.1 d hd').2 h
    · intro h hh
      have : h ≠ c.1 := fun e => hh c (by simp) e.symm
      simp only [mergeCell, if_neg this]
      exact ih.2 h (fun d hd => hh d (by simp [hd]))

omit [IsStrictOrderedRing K] in
lemma hand_cells (par : Par P K) (V X : Store P K) (l : List (ℕ × ℕ)) (d : ℕ × ℕ) (hd : d ∈ X.cells) : d ∈ (hand par V X l).cells := by
  induction l using List.reverseRecOn with
  | nil => exact hd
  | append_singleton l c ih =>
    rw [hand_snoc]
    simp only [mergeCell]
    split
    · exact ih
    · simp [ih]

lemma remote_round (par : Par P K) (cs : List (ℕ × ℕ)) (S : Store P K) : (roundRemote par cs S).1 = hand par S S cs := rfl

lemma remote_mono (par : Par P K) {cs : List (ℕ × ℕ)} {N : ℕ} (hcs : Chunks cs N) (S : Store P K) (h k a : ℕ) (hf : Filled S h k a) : Filled (roundRemote par cs S).1 h k a := by
  rw [remote_round]
  have hd := hand_data par hcs S S cs (fun c hc => hc)
  by_cases hc : ∃ c ∈ cs, c.1 = h
  · obtain ⟨c, hc, rfl⟩ := hc
    obtain ⟨T, hT, hs⟩ := run_mono par S c.1 c.2 c.1 k a hf
    exact ⟨T, by rw [(hd.1 c hc).1]; exact hT, hs⟩
  · push Not at hc
    obtain ⟨T, hT, hs⟩ := hf
    exact ⟨T, by rw [hd.2 h hc]; exact hT, hs⟩

lemma remote_progress (par : Par P K) (hM : 0 < par.maxAge) (hlen : ∀ t p, 0 ≤ par.len t p) {cs : List (ℕ × ℕ)} {N : ℕ} (hcs : Chunks cs N) (S : Store P K) (hS : Reach par cs S)
    (hb : (roundRemote par cs S).2 = true) :
    ∃ d ∈ cs, ∃ k < d.2, ∃ a < par.maxAge, ¬ Filled S d.1 k a ∧ Filled (roundRemote par cs (roundRemote par cs S).1).1 d.1 k a := by
  have hI := inv_reach par hM hlen hcs S hS
  have hd1 := hand_data par hcs S S cs (fun c hc => hc)
  unfold roundRemote at hb
  simp only [List.any_eq_true] at hb
  obtain ⟨c, hc, hcb⟩ := hb
  rcases run_new par hM hlen hcs S hI c hc hcb with ⟨k, hk, a, ha, h1, T, hT, hs⟩ | ⟨d, hd, hdc, k, hk, a, ha, h1, u, hu, hs⟩
  · refine ⟨c, hc, k, hk, a, ha, h1, remote_mono par hcs _ _ k a ?_⟩
    exact ⟨T, by rw [remote_round, (hd1.1 c hc).1]; exact hT, hs⟩
  · refine ⟨d, hd, k, hk, a, ha, h1, ?_⟩
    have hdp := hcs.pos d hd
    have hreach : Reach par cs (roundRemote par cs S).1 := by rw [remote_round]; exact hand_reach par S S hS hS cs (fun c hc => hc)
    have hIX := inv_reach par hM hlen hcs _ hreach
    have hcell : c ∈ (roundRemote par cs S).1.cells := by
      apply hIX.listed c hc
      rw [remote_round, (hd1.1 c hc).1, run_data, if_pos rfl]
      rfl
    have hpend : Pending (roundRemote par cs S).1 c.1 d.1 k a := Or.inr ⟨u, by rw [remote_round, (hd1.1 c hc).2]; exact hu, hs⟩
    obtain ⟨T, hT, hs'⟩ := pending_apply par _ c d hcell (by omega) k a hk ha hpend
    have hd2 := hand_data par hcs (roundRemote par cs S).1 (roundRemote par cs S).1 cs (fun c hc => hc)
    exact ⟨T, by rw [remote_round, (hd2.1 d hd).1]; exact hT, hs'⟩

/-- C52 (other processes): the iteration is no longer blocked after at most 2 x (number of states) x (maximal age) rounds, and then every chunk sees, in each of its states, all wake points
that are not older than the maximal age and were not beyond the maximal length one step before. -/
theorem C52_converges_remote (par : Par P K) (hM : 0 < par.maxAge) (hlen : ∀ t p, 0 ≤ par.len t p) (cs : List (ℕ × ℕ)) (N : ℕ) (hcs : Chunks cs N) :
    ∃ r ≤ 2 * N * par.maxAge, (roundRemote par cs ((fun S => (roundRemote par cs S).1)^[r] Store.empty)).2 = false ∧
      ∀ c ∈ cs, ∀ t a, c.1 ≤ t → t < c.1 + c.2 → a < par.maxAge → a ≤ t → (a = 0 ∨ (traj par (t - a) (a - 1)).2 < par.maxLen) →
        entry (runChunk par ((fun S => (roundRemote par cs S).1)^[r] Store.empty) c.1 c.2).tables (t - a) a = some (traj par (t - a) a) := by
  have hstep : ∀ S, Reach par cs S → Reach par cs (roundRemote par cs S).1 := fun S hS => hand_reach par S S hS hS cs (fun c hc => hc)
  obtain ⟨r, hr, hb⟩ := rounds_end par.maxAge N cs hcs (fun S => (roundRemote par cs S).1) (fun S => (roundRemote par cs S).2) (Reach par cs) hstep
    (fun S _ h k a hf => remote_mono par hcs S h k a hf) (fun S hS hb => remote_progress par hM hlen hcs S hS hb) Store.empty Reach.empty
  refine ⟨r, hr, hb, ?_⟩
  have hS : Reach par cs ((fun S => (roundRemote par cs S).1)^[r] Store.empty) := by
    clear hb hr
    induction r with
    | zero => exact Reach.empty
    | succ r ih =>
      rw [Function.iterate_succ_apply']
      exact hstep _ ih
  revert hb hS
  generalize (fun S => (roundRemote par cs S).1)^[r] Store.empty = S
  intro hb hS
  have hun : ∀ c ∈ cs, (runChunk par S c.1 c.2).blocked = false := by
    intro c hc
    simp only [roundRemote] at hb
    have := List.any_eq_false.1 hb c hc
    simpa using this
  have hall : ∀ c ∈ cs, (S.data c.1).isSome := fun c hc => (run_quiet par _ c.1 c.2 (hun c hc)).1
  intro c hc t a h1 h2 ha hat hsh
  exact used_complete par hM hlen cs N hcs S hS hall (fun c hc => ⟨S, hS, rfl, hun c hc⟩) S hS rfl c hc (hun c hc) t a ⟨h1, h2⟩ ha hat hsh

/-! ### The wake that acts at a point -/

omit [IsStrictOrderedRing K] in
lemma nearest_spec (d : P → K) (l : List (ℕ × (P × K))) (hl : l ≠ []) :
    ∃ (n : ℕ) (x : ℕ × (P × K)), l[n]? = some x ∧ nearest d l = some x ∧ (∀ y ∈ l, d x.2.1 ≤ d y.2.1) ∧ ∀ (m : ℕ) (y : ℕ × (P × K)), m < n → l[m]? = some y → d x.2.1 < d y.2.1 := by
  induction l with
  | nil => exact absurd rfl hl
  | cons x l ih =>
    by_cases h0 : l = []
    · subst h0
      exact ⟨0, x, rfl, rfl, by simp, by intro m y hm; omega⟩
    · obtain ⟨n, z, h1, h2, h3, h4⟩ := ih h0
      by_cases hle : d x.2.1 ≤ d z.2.1
      · refine ⟨0, x, rfl, by simp [nearest, h2, hle], ?_, by intro m y hm; omega⟩
        intro y hy
        rcases List.mem_cons.1 hy with rfl | hy
        · exact le_rfl
        · exact hle.trans (h3 y hy)
      · refine ⟨n + 1, z, by simpa using h1, by simp [nearest, h2, hle], ?_, ?_⟩
        · intro y hy
          rcases List.mem_cons.1 hy with rfl | hy
          · exact (lt_of_not_ge hle).le
          · exact h3 y hy
        · intro m y hm hy
          cases m with
          | zero =>
            simp at hy
            subst hy
            exact lt_of_not_ge hle
          | succ m => exact h4 m y (by omega) (by simpa using hy)

omit [Field K] [LinearOrder K] [IsStrictOrderedRing K] in
lemma mem_candidates (par : Par P K) (tables : List (ℕ × ℕ × Table P K)) (t : ℕ) (x : ℕ × (P × K)) :
    x ∈ candidates par tables t ↔ x.1 < par.maxAge ∧ x.1 ≤ t ∧ entry tables (t - x.1) x.1 = some x.2 := by
  unfold candidates
  rw [List.mem_filterMap]
  constructor
  · rintro ⟨a, ha, h⟩
    rw [List.mem_range] at ha
    split at h
    · rw [Option.map_eq_some_iff] at h
      obtain ⟨e, he, rfl⟩ := h
      exact ⟨ha, by assumption, he⟩
    · simp at h
  · rintro ⟨h1, h2, h3⟩
    exact ⟨x.1, List.mem_range.2 h1, by rw [if_pos h2, h3]; rfl⟩

omit [Field K] [LinearOrder K] [IsStrictOrderedRing K] in
lemma candidates_sorted (par : Par P K) (tables : List (ℕ × ℕ × Table P K)) (t : ℕ) : (candidates par tables t).Pairwise (fun x y => x.1 < y.1) := by
  unfold candidates
  rw [List.pairwise_filterMap]
  refine List.Pairwise.imp ?_ List.pairwise_lt_range
  intro a b hab x hx y hy
  split at hx
  · split at hy
    · rw [Option.map_eq_some_iff] at hx hy
      obtain ⟨e, -, rfl⟩ := hx
      obtain ⟨f, -, rfl⟩ := hy
      exact hab
    · simp at hy
  · simp at hx

/-- the wake state, in terms of the wake points that are there -/
lemma wakeState_spec (par : Par P K) (tables : List (ℕ × ℕ × Table P K)) (d : P → K) (t : ℕ) (hne : candidates par tables t ≠ []) :
    ∃ a e, a < par.maxAge ∧ a ≤ t ∧ entry tables (t - a) a = some e ∧ wakeState par tables d t = t - a ∧
      ∀ b f, b < par.maxAge → b ≤ t → entry tables (t - b) b = some f → d e.1 ≤ d f.1 ∧ (b < a → d e.1 < d f.1) := by
  obtain ⟨n, x, h1, h2, h3, h4⟩ := nearest_spec d _ hne
  have hx := (mem_candidates par tables t x).1 (List.mem_of_getElem? h1)
  refine ⟨x.1, x.2, hx.1, hx.2.1, hx.2.2, by simp [wakeState, h2], ?_⟩
  intro b f hb hbt hf
  have hm := (mem_candidates par tables t (b, f)).2 ⟨hb, hbt, hf⟩
  refine ⟨h3 _ hm, ?_⟩
  intro hlt
  obtain ⟨m, hm'⟩ := List.mem_iff_getElem?.1 hm
  refine h4 m (b, f) ?_ hm'
  have hs := candidates_sorted par tables t
  rw [List.pairwise_iff_getElem] at hs
  obtain ⟨hn1, hn2⟩ := List.getElem?_eq_some_iff.1 h1
  obtain ⟨hm1, hm2⟩ := List.getElem?_eq_some_iff.1 hm'
  by_contra hge
  rcases Nat.lt_or_ge n m with hnm | hnm
  · have := hs n m hn1 hm1 hnm
    rw [hn2, hm2] at this
    simp only at this
    omega
  · have : n = m := by omega
    subst this
    rw [h1] at hm'
    simp at hm'
    rw [hm'] at hlt
    simp at hlt

/-- C52 (use): in any state of any run, the wake at a point comes from a wake point that really exists: created in state `t - a`, it has drifted to its place in `a` steps; and it is at most as
far away as the turbine itself. -/
theorem C52_wake_state_true (par : Par P K) (hM : 0 < par.maxAge) (hlen : ∀ t p, 0 ≤ par.len t p) (cs : List (ℕ × ℕ)) (N : ℕ) (hcs : Chunks cs N) (S : Store P K)
    (hS : Reach par cs S) (c : ℕ × ℕ) (hc : c ∈ cs) (d : P → K) (t : ℕ) (ht : c.1 ≤ t ∧ t < c.1 + c.2) :
    ∃ a, a < par.maxAge ∧ a ≤ t ∧ wakeState par (runChunk par S c.1 c.2).tables d t = t - a ∧
      entry (runChunk par S c.1 c.2).tables (t - a) a = some (traj par (t - a) a) ∧ d (traj par (t - a) a).1 ≤ d (par.rotor t) ∧
      ∀ b f, b < par.maxAge → b ≤ t → entry (runChunk par S c.1 c.2).tables (t - b) b = some f → d (traj par (t - a) a).1 ≤ d f.1 := by
  have hI := inv_reach par hM hlen hcs S hS
  have hown : entry (runChunk par S c.1 c.2).tables t 0 = some (traj par t 0) := by
    have hex : (entry (runChunk par S c.1 c.2).tables t 0).isSome := by
      unfold entry
      cases hq : (runChunk par S c.1 c.2).tables.find? (fun q => decide (q.1 ≤ t ∧ t < q.1 + q.2.1)) with
      | none =>
        rw [List.find?_eq_none] at hq
        have := hq (c.1, c.2, (rOwn par S c.1 c.2).1) (by rw [run_tables]; simp)
        simp at this
        omega
      | some q =>
        have hmem := List.mem_of_find?_eq_some hq
        have hin := List.find?_some hq
        simp only [decide_eq_true_eq] at hin
        rw [run_tables, List.mem_append, List.mem_singleton, List.mem_reverse] at hmem
        rcases hmem with hmem | rfl
        · unfold rExt at hmem
          rw [List.mem_map] at hmem
          obtain ⟨p, hp, rfl⟩ := hmem
          obtain ⟨g1, g2, g3, g4⟩ := before_ok par hcs S hI c hc p hp
          simp only at hin
          omega
        · simp only [Option.bind_some]
          simp only at hin
          exact (rOwn_ok par hM hlen hcs S hI c hc).2 (t - c.1) (by omega) 0 (by omega) hM (Or.inl rfl)
    obtain ⟨e, he⟩ := Option.isSome_iff_exists.1 hex
    rw [he, C52_points_true par hM hlen cs N hcs S hS c hc t 0 e he]
  have hne : candidates par (runChunk par S c.1 c.2).tables t ≠ [] := by
    intro h0
    have := (mem_candidates par (runChunk par S c.1 c.2).tables t (0, traj par t 0)).2 ⟨hM, by simp, by simpa using hown⟩
    rw [h0] at this
    simp at this
  obtain ⟨a, e, h1, h2, h3, h4, h5⟩ := wakeState_spec par _ d t hne
  obtain rfl := C52_points_true par hM hlen cs N hcs S hS c hc (t - a) a e h3
  exact ⟨a, h1, h2, h4, h3, (h5 0 (traj par t 0) hM (by omega) (by simpa using hown)).1, fun b f hb hbt hf => (h5 b f hb hbt hf).1⟩

/-- the age of the nearest wake point (the youngest, if there are several), said without chunks: `a` is the age in state `t` -/
def NearestAge (par : Par P K) (d : P → K) (t a : ℕ) : Prop :=
  a < par.maxAge ∧ a ≤ t ∧ ∀ b, b < par.maxAge → b ≤ t → d (traj par (t - a) a).1 ≤ d (traj par (t - b) b).1 ∧ (b < a → d (traj par (t - a) a).1 < d (traj par (t - b) b).1)

omit [IsStrictOrderedRing K] in
/-- there is only one such age -/
lemma nearestAge_unique (par : Par P K) (d : P → K) (t a b : ℕ) (ha : NearestAge par d t a) (hb : NearestAge par d t b) : a = b := by
  rcases Nat.lt_trichotomy a b with h | h | h
  · have h1 := (hb.2.2 a ha.1 ha.2.1).2 h
    have h2 := (ha.2.2 b hb.1 hb.2.1).1
    exact absurd h1 (not_lt.2 h2)
  · exact h
  · have h1 := (ha.2.2 b hb.1 hb.2.1).2 h
    have h2 := (hb.2.2 a ha.1 ha.2.1).1
    exact absurd h1 (not_lt.2 h2)

lemma wakeState_complete (par : Par P K) (hM : 0 < par.maxAge) (tables : List (ℕ × ℕ × Table P K)) (d : P → K) (t : ℕ)
    (h : ∀ a, a < par.maxAge → a ≤ t → entry tables (t - a) a = some (traj par (t - a) a)) : ∃ a, NearestAge par d t a ∧ wakeState par tables d t = t - a := by
  have hne : candidates par tables t ≠ [] := by
    intro h0
    have := (mem_candidates par tables t (0, traj par t 0)).2 ⟨hM, by simp, by simpa using h 0 hM (by omega)⟩
    rw [h0] at this
    simp at this
  obtain ⟨a, e, h1, h2, h3, h4, h5⟩ := wakeState_spec par tables d t hne
  rw [h a h1 h2] at h3
  obtain rfl : traj par (t - a) a = e := by simpa using h3
  exact ⟨a, ⟨h1, h2, fun b hb hbt => h5 b _ hb hbt (h b hb hbt)⟩, h4⟩

/-- C52 (chunks and engines do not matter): if no wake reaches the maximal length within the maximal age, then after the iteration the state whose wake acts at a point is the one that the
trajectories alone determine - in one process or in several, for any two divisions into chunks. -/
theorem C52_wake_state_converged (par : Par P K) (hM : 0 < par.maxAge) (hlen : ∀ t p, 0 ≤ par.len t p) (cs : List (ℕ × ℕ)) (N : ℕ) (hcs : Chunks cs N)
    (hshort : ∀ i a, a + 1 < par.maxAge → (traj par i a).2 < par.maxLen) :
    (∃ r ≤ 2 * N * par.maxAge, (roundRemote par cs ((fun S => (roundRemote par cs S).1)^[r] Store.empty)).2 = false ∧
      ∀ c ∈ cs, ∀ t, c.1 ≤ t → t < c.1 + c.2 → ∀ d : P → K, ∃ a, NearestAge par d t a ∧
        wakeState par (runChunk par ((fun S => (roundRemote par cs S).1)^[r] Store.empty) c.1 c.2).tables d t = t - a) ∧
    (cs.Pairwise (fun c d => c.1 + c.2 ≤ d.1) →
      ∃ r ≤ 2 * N * par.maxAge, (roundShared par cs ((fun S => (roundShared par cs S).1)^[r] Store.empty)).2 = false ∧
      ∀ l1 c l2, cs = l1 ++ c :: l2 → ∀ t, c.1 ≤ t → t < c.1 + c.2 → ∀ d : P → K, ∃ a, NearestAge par d t a ∧
        wakeState par (runChunk par (runs par ((fun S => (roundShared par cs S).1)^[r] Store.empty) l1) c.1 c.2).tables d t = t - a) := by
  have hs : ∀ i a, a < par.maxAge → (a = 0 ∨ (traj par i (a - 1)).2 < par.maxLen) := by
    intro i a ha
    rcases Nat.eq_zero_or_pos a with h | h
    · exact Or.inl h
    · exact Or.inr (hshort i (a - 1) (by omega))
  constructor
  · obtain ⟨r, hr, hb, hu⟩ := C52_converges_remote par hM hlen cs N hcs
    refine ⟨r, hr, hb, ?_⟩
    intro c hc t h1 h2 d
    exact wakeState_complete par hM _ d t (fun a ha hat => hu c hc t a h1 h2 ha hat (hs _ a ha))
  · intro hsort
    obtain ⟨r, hr, hb, hu⟩ := C52_converges_shared par hM hlen cs N hcs hsort
    refine ⟨r, hr, hb, ?_⟩
    intro l1 c l2 hl t h1 h2 d
    exact wakeState_complete par hM _ d t (fun a ha hat => hu l1 c l2 hl t a h1 h2 ha hat (hs _ a ha))

/-! ### Finding: the number of rounds -/

/-- one chunk per state -/
def singles (N : ℕ) : List (ℕ × ℕ) := (List.range N).map (fun i => (i, 1))

lemma mem_singles {N : ℕ} {c : ℕ × ℕ} : c ∈ singles N ↔ c.1 < N ∧ c.2 = 1 := by
  unfold singles
  rw [List.mem_map]
  constructor
  · rintro ⟨i, hi, rfl⟩
    exact ⟨List.mem_range.1 hi, rfl⟩
  · rintro ⟨h1, h2⟩
    exact ⟨c.1, List.mem_range.2 h1, by rw [← h2]⟩

/-- one chunk per state is a division into chunks -/
lemma singles_chunks (N : ℕ) : Chunks (singles N) N := by
  refine ⟨?_, ?_, ?_, ?_⟩
  · intro c hc
    have := mem_singles.1 hc
    omega
  · intro c hc
    have := mem_singles.1 hc
    omega
  · intro c hc d hd
    have h1 := mem_singles.1 hc
    have h2 := mem_singles.1 hd
    rcases Nat.lt_trichotomy c.1 d.1 with h | h | h
    · right; left; omega
    · left; exact Prod.ext h (by omega)
    · right; right; omega
  · intro t ht
    exact ⟨(t, 1), mem_singles.2 ⟨ht, rfl⟩, by simp, by simp⟩

/-- ... in the order of time -/
lemma singles_sorted (N : ℕ) : (singles N).Pairwise (fun c d => c.1 + c.2 ≤ d.1) := by
  unfold singles
  rw [List.pairwise_map]
  refine List.Pairwise.imp ?_ List.pairwise_lt_range
  intro a b h
  exact h

/-- where entries come from -/
lemma apply_from (par : Par P K) (i0 n : ℕ) (upd : ℕ → Option (Table P K)) (js : List ℕ) (r : Table P K × Bool) (k a : ℕ) (h : ((applyUpdates par upd i0 n js r).1 k a).isSome) :
    (r.1 k a).isSome ∨ ∃ j u, upd j = some u ∧ (u k a).isSome := by
  induction js generalizing r with
  | nil => exact Or.inl h
  | cons j js ih =>
    obtain ⟨T, b⟩ := r
    unfold applyUpdates at h
    split at h
    · cases h1 : upd j with
      | none =>
        rw [h1] at h
        exact ih (T, b) h
      | some u =>
        rw [h1] at h
        simp only at h
        split at h
        · rcases ih _ h with h2 | h2
          · rw [fill_some, Bool.or_eq_true] at h2
            rcases h2 with h2 | h2
            · exact Or.inl h2
            · exact Or.inr ⟨j, u, h1, h2⟩
          · exact Or.inr h2
        · exact ih (T, b) h
    · exact ih (T, b) h

/-- the wake of state 0 has ages up to `b` in its table, and up to `b + 1` in updates -/
def Bound (b : ℕ) (S : Store P K) : Prop :=
  (∀ T, S.data 0 = some T → ∀ a, (T 0 a).isSome → a ≤ b) ∧ ∀ j u, S.upd j 0 = some u → ∀ a, (u 0 a).isSome → a ≤ b + 1

lemma carry_bound (par : Par P K) {N : ℕ} (S : Store P K) (hI : Inv par (singles N) S) (b : ℕ) (hB : Bound b S) (c : ℕ × ℕ) (hc : c ∈ singles N)
    (q : ℕ × ℕ × Table P K) (hq : q ∈ rBefore par S c.1 c.2) (hq0 : q.1 = 0) (a : ℕ) (ha : (carryChunk par c.1 c.2 q.1 q.2.1 q.2.2 0 a).isSome) : a ≤ b + 1 := by
  classical
  obtain ⟨g1, g2, g3, g4⟩ := before_ok par (singles_chunks N) S hI c hc q hq
  have hc2 := (mem_singles.1 hc).2
  rw [hq0] at g4
  rw [carryChunk_form par c.1 c.2 q.1 q.2.1 q.2.2 g2 g3.good] at ha
  split at ha
  · rename_i h
    obtain ⟨-, ⟨-, ⟨e, he, -⟩, -⟩, h2, h3, -⟩ := h
    have := hB.1 _ g4 (c.1 - (q.1 + 0)) (by rw [he]; rfl)
    omega
  · have := hB.1 _ g4 a ha
    omega

lemma bound_other (par : Par P K) {N : ℕ} (S : Store P K) (hI : Inv par (singles N) S) (b : ℕ) (hB : Bound b S) (c : ℕ × ℕ) (hc : c ∈ singles N) (h0 : c.1 ≠ 0) :
    Bound b (runChunk par S c.1 c.2).store := by
  refine ⟨?_, ?_⟩
  · intro T hT
    rw [run_data, if_neg (fun h => h0 h.symm)] at hT
    exact hB.1 T hT
  · intro j u hu
    rw [run_upd] at hu
    have hold : (rS1 par S c.1 c.2).upd j 0 = some u → ∀ a, (u 0 a).isSome → a ≤ b + 1 := by
      intro h
      simp only [rS1] at h
      rw [if_neg (fun h => h0 h.1.symm)] at h
      exact hB.2 j u h
    split at hu
    · split at hu
      · rename_i z hz
        have hzm := List.mem_of_find?_eq_some hz
        have hz0 := List.find?_some hz
        simp only [decide_eq_true_eq] at hz0
        unfold rChanged at hzm
        obtain ⟨hzz, -⟩ := List.mem_filter.1 hzm
        obtain ⟨m1, m2⟩ := changed_mem par S c.1 c.2 z hzz
        simp at hu
        subst hu
        intro a ha
        unfold newPart at ha
        split at ha
        · rw [m2] at ha
          exact carry_bound par S hI b hB c hc z.1 m1 hz0 a ha
        · simp at ha
      · exact hold hu
    · exact hold hu

lemma bound_zero (par : Par P K) {N : ℕ} (S : Store P K) (hI : Inv par (singles N) S) (b : ℕ) (hB : Bound b S) (hN : 0 < N) :
    Bound (b + 1) (runChunk par S 0 1).store := by
  have hc : ((0, 1) : ℕ × ℕ) ∈ singles N := mem_singles.2 ⟨hN, rfl⟩
  refine ⟨?_, ?_⟩
  · intro T hT a ha
    rw [run_data, if_pos rfl] at hT
    simp at hT
    subst hT
    unfold rOwn at ha
    rcases apply_from par _ _ _ _ _ 0 a ha with h | ⟨j, u, h1, h2⟩
    · unfold rStart at h
      cases hd : S.data 0 with
      | some T =>
        rw [hd] at h
        have := hB.1 T hd a h
        omega
      | none =>
        rw [hd] at h
        obtain ⟨A, -, hA, -⟩ := own_form par 0 1
        simp only at h
        rw [hA] at h
        split at h
        · omega
        · simp at h
    · exact hB.2 j u h1 a h2
  · intro j u hu a ha
    rw [run_upd] at hu
    have hbe : ∀ q ∈ rBefore par S 0 1, False := by
      intro q hq
      obtain ⟨g1, g2, -, -⟩ := before_ok par (singles_chunks N) S hI (0, 1) hc q hq
      have := (mem_singles.1 g1).2
      simp only at g2 this
      omega
    have hch : rChanged par S 0 1 = [] := by
      rw [List.eq_nil_iff_forall_not_mem]
      intro z hz
      unfold rChanged at hz
      obtain ⟨hzz, -⟩ := List.mem_filter.1 hz
      exact hbe _ (changed_mem par S 0 1 z hzz).1
    rw [hch] at hu
    have hu' : (rS1 par S 0 1).upd j 0 = some u := by
      split at hu
      · simpa using hu
      · exact hu
    simp only [rS1] at hu'
    split at hu'
    · simp at hu'
    · have := hB.2 j u hu' a ha
      omega

lemma bound_runs (par : Par P K) (hM : 0 < par.maxAge) (hlen : ∀ t p, 0 ≤ par.len t p) {N : ℕ} (l : List (ℕ × ℕ)) (hl : ∀ c ∈ l, c ∈ singles N ∧ c.1 ≠ 0) (S : Store P K) (hI : Inv par (singles N) S)
    (b : ℕ) (hB : Bound b S) : Bound b (runs par S l) := by
  induction l generalizing S with
  | nil => exact hB
  | cons c l ih =>
    obtain ⟨h1, h2⟩ := hl c (List.mem_cons_self ..)
    exact ih (fun d hd => hl d (List.mem_cons_of_mem _ hd)) _ (inv_run par hM hlen (singles_chunks N) S hI c h1) (bound_other par S hI b hB c h1 h2)

lemma singles_succ (N : ℕ) : singles (N + 1) = (0, 1) :: (List.range N).map (fun i => (i + 1, 1)) := by
  unfold singles
  rw [List.range_succ_eq_map]
  simp [Function.comp_def]

/-- C52 (rounds): with one chunk per state, a round brings at most one more step of the wake of the first state, however many rounds are made: in the round after `r` rounds, the chunk of state
`t > r + 2` does not see it. -/
theorem C52_one_step_per_round (par : Par P K) (hM : 0 < par.maxAge) (hlen : ∀ t p, 0 ≤ par.len t p) (N r t : ℕ) (ht : r + 2 < t) (htN : t < N)
    (l1 l2 : List (ℕ × ℕ)) (hl : singles N = l1 ++ (t, 1) :: l2) :
    entry (runChunk par (runs par ((fun S => (roundShared par (singles N) S).1)^[r] Store.empty) l1) t 1).tables 0 t = none := by
  obtain ⟨n, rfl⟩ : ∃ n, N = n + 1 := ⟨N - 1, by omega⟩
  have hcs := singles_chunks (n + 1)
  have hkey : ∀ r, Reach par (singles (n + 1)) ((fun S => (roundShared par (singles (n + 1)) S).1)^[r] Store.empty) ∧
      Bound r ((fun S => (roundShared par (singles (n + 1)) S).1)^[r] Store.empty) := by
    intro r
    induction r with
    | zero =>
      refine ⟨Reach.empty, ?_, ?_⟩
      · intro T hT
        simp [Store.empty] at hT
      · intro j u hu
        simp [Store.empty] at hu
    | succ r ih =>
      rw [Function.iterate_succ_apply']
      obtain ⟨h1, h2⟩ := ih
      revert h1 h2
      generalize (fun S => (roundShared par (singles (n + 1)) S).1)^[r] Store.empty = S
      intro h1 h2
      rw [round_store]
      refine ⟨runs_reach par _ (fun c hc => hc) S h1, ?_⟩
      have hI := inv_reach par hM hlen hcs S h1
      rw [singles_succ]
      show Bound (r + 1) (runs par (runChunk par S 0 1).store ((List.range n).map (fun i => (i + 1, 1))))
      apply bound_runs par hM hlen (N := n + 1) _ _ _ (inv_run par hM hlen hcs S hI (0, 1) (mem_singles.2 ⟨by simp, rfl⟩)) _ (bound_zero par S hI r h2 (by omega))
      intro c hc
      rw [List.mem_map] at hc
      obtain ⟨i, hi, rfl⟩ := hc
      have := List.mem_range.1 hi
      exact ⟨mem_singles.2 ⟨by simp only; omega, rfl⟩, by simp⟩
  obtain ⟨hR, hB⟩ := hkey r
  revert hR hB
  generalize (fun S => (roundShared par (singles (n + 1)) S).1)^[r] Store.empty = S
  intro hR hB
  have hI := inv_reach par hM hlen hcs S hR
  -- the store when the chunk runs
  have hV : Inv par (singles (n + 1)) (runs par S l1) ∧ Bound (r + 1) (runs par S l1) := by
    refine ⟨runs_inv par hM hlen hcs l1 (fun c hc => by rw [hl]; simp [hc]) S hI, ?_⟩
    cases l1 with
    | nil =>
      rw [singles_succ] at hl
      simp at hl
      omega
    | cons x l1 =>
      rw [singles_succ] at hl
      obtain ⟨rfl, hl'⟩ : (0, 1) = x ∧ (List.range n).map (fun i => (i + 1, 1)) = l1 ++ (t, 1) :: l2 := by simpa using hl
      show Bound (r + 1) (runs par (runChunk par S 0 1).store l1)
      apply bound_runs par hM hlen (N := n + 1) _ _ _ (inv_run par hM hlen hcs S hI (0, 1) (mem_singles.2 ⟨by simp, rfl⟩)) _ (bound_zero par S hI r hB (by omega))
      intro c hc
      have : c ∈ (List.range n).map (fun i => (i + 1, 1)) := by rw [hl']; simp [hc]
      rw [List.mem_map] at this
      obtain ⟨i, hi, rfl⟩ := this
      have := List.mem_range.1 hi
      exact ⟨mem_singles.2 ⟨by simp only; omega, rfl⟩, by simp⟩
  obtain ⟨hIV, hBV⟩ := hV
  have hc : ((t, 1) : ℕ × ℕ) ∈ singles (n + 1) := mem_singles.2 ⟨htN, rfl⟩
  unfold entry
  cases hq : (runChunk par (runs par S l1) t 1).tables.find? (fun q => decide (q.1 ≤ 0 ∧ 0 < q.1 + q.2.1)) with
  | none => rfl
  | some q =>
    have hmem := List.mem_of_find?_eq_some hq
    have hin := List.find?_some hq
    simp only [decide_eq_true_eq] at hin
    rw [run_tables, List.mem_append, List.mem_singleton, List.mem_reverse] at hmem
    rcases hmem with hmem | rfl
    · unfold rExt at hmem
      rw [List.mem_map] at hmem
      obtain ⟨p, hp, rfl⟩ := hmem
      simp only at hin
      have hp0 : p.1 = 0 := by omega
      simp only [Option.bind_some]
      by_contra hne
      have hs := Option.isSome_iff_ne_none.2 hne
      have := carry_bound par _ hIV (r + 1) hBV (t, 1) hc p hp hp0 t (by simpa [hp0] using hs)
      omega
    · simp only at hin
      omega

/-- C52 (finding): with the default limit of iterations, which knows the number of turbines but not the number of chunks, the final result lacks wake points: one chunk per state, `n` turbines, more than
`n ^ 2 + 6` states, and a wake that is neither too old nor too long. -/
theorem C52_default_limit_finding (par : Par P K) (hlen : ∀ t p, 0 ≤ par.len t p) (nT N t : ℕ) (ht : nT ^ 2 + 5 < t) (htN : t < N) (hage : t < par.maxAge)
    (l1 l2 : List (ℕ × ℕ)) (hl : singles N = l1 ++ (t, 1) :: l2) :
    entry (runChunk par (runs par ((fun S => (roundShared par (singles N) S).1)^[defaultRounds nT - 1] Store.empty) l1) t 1).tables 0 t = none := by
  apply C52_one_step_per_round par (by omega) hlen N _ t _ htN l1 l2 hl
  simp only [defaultRounds]
  omega

/-! ### Examples -/

/-- a wind of one metre per step, along a line -/
def line (maxAge : ℕ) (maxLen : ℚ) : Par ℚ ℚ := ⟨fun _ => 0, fun _ p => p + 1, fun _ _ => 1, maxAge, maxLen⟩

lemma line_traj (maxAge : ℕ) (maxLen : ℚ) (i a : ℕ) : traj (line maxAge maxLen) i a = ((a : ℚ), (a : ℚ)) := by
  induction a with
  | zero => simp [traj, line]
  | succ a ih =>
    unfold traj
    rw [ih]
    simp [line]

/-- hypotheses of the convergence theorems are met -/
example : Chunks [(0, 2), (2, 1), (3, 3)] 6 := by
  refine ⟨by decide, by decide, by decide, ?_⟩
  intro t ht
  interval_cases t <;> decide

example : ∃ a, NearestAge (line 4 100) (fun p => |p - 2|) 5 a ∧ a = 2 := by
  refine ⟨2, ⟨by decide, by omega, ?_⟩, rfl⟩
  intro b hb _
  have hb' : b < 4 := hb
  rw [line_traj, line_traj]
  interval_cases b <;> norm_num

/-- a run in which chunks exchange wake points: state 5 sees the wakes of states 2, 3, 4, in particular from other chunks -/
example : (roundRemote (line 4 100) [(0, 2), (2, 1), (3, 3)] ((fun S => (roundRemote (line 4 100) [(0, 2), (2, 1), (3, 3)] S).1)^[5] Store.empty)).2 = false := by decide +kernel

example : wakeState (line 4 100) (runChunk (line 4 100) ((fun S => (roundRemote (line 4 100) [(0, 2), (2, 1), (3, 3)] S).1)^[5] Store.empty) 3 3).tables (fun p => |p - 3|) 5 = 2 := by decide +kernel

example : (roundRemote (line 4 100) [(0, 2), (2, 1), (3, 3)] ((fun S => (roundRemote (line 4 100) [(0, 2), (2, 1), (3, 3)] S).1)^[1] Store.empty)).2 = true := by decide +kernel

/-- C52 (finding): beyond the maximal length the result depends on the chunks: in one chunk, the loop over ages ends when all wakes are long enough; in chunks of one state, each wake goes on while it is not
longer than the maximal length. -/
theorem C52_max_length_finding :
    ∃ cs1 cs2 : List (ℕ × ℕ), Chunks cs1 4 ∧ Chunks cs2 4 ∧
      ∃ (S1 S2 : Store ℚ ℚ), Reach (line 4 1) cs1 S1 ∧ Reach (line 4 1) cs2 S2 ∧ (roundRemote (line 4 1) cs1 S1).2 = false ∧ (roundRemote (line 4 1) cs2 S2).2 = false ∧
        wakeState (line 4 1) (runChunk (line 4 1) S1 0 4).tables (fun p => |p - 2|) 2 = 1 ∧ wakeState (line 4 1) (runChunk (line 4 1) S2 2 1).tables (fun p => |p - 2|) 2 = 0 := by
  have hreach : ∀ cs r, Reach (line 4 1) cs ((fun S => (roundRemote (line 4 1) cs S).1)^[r] Store.empty) := by
    intro cs r
    induction r with
    | zero => exact Reach.empty
    | succ r ih =>
      rw [Function.iterate_succ_apply']
      exact hand_reach _ _ _ ih ih cs (fun c hc => hc)
  refine ⟨[(0, 4)], singles 4, ⟨by decide, by decide, by decide, by intro t ht; exact ⟨(0, 4), by simp, by simp, by simpa using ht⟩⟩, singles_chunks 4,
    _, _, hreach _ 1, hreach _ 4, ?_, ?_, ?_, ?_⟩ <;> decide +kernel

end Foxes.Props.DynWakes
