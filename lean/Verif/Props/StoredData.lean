import Verif.Model.StoredData
import Mathlib.Data.List.Forall2
import Mathlib.Tactic.Tauto
/-
C87: the data kept for models, and farms that get another number of turbines (foxes/core/algorithm.py:216-353).
-/
namespace Foxes.Props.StoredData
open Foxes.StoredData

variable {V : Type}

/-! ### specification -/

/-- an index within the shape -/
def InBounds (shape idx : List Nat) : Prop := List.Forall₂ (· < ·) idx shape

/-- the values are the same at all positions of axis `i` -/
def Free (i : Nat) (a : Arr V) : Prop := ∀ idx t, InBounds a.shape idx → t < a.shape.getD i 0 → a.val (idx.set i t) = a.val idx

/-- one size for each dimension -/
def Well (v : Var V) : Prop := v.arr.shape.length = v.dims.length

/-- the turbine axis, if there is one has `n` entries, and at each of them the value that `v` has at any of its
turbines -/
def ResizedAxis (n : Nat) (v v' : Var V) : Prop :=
  v'.dims = v.dims ∧
  ∀ i, v.dims.idxOf? "turbine" = some i →
    v'.arr.shape = v.arr.shape.set i n ∧
    ∀ idx, InBounds v'.arr.shape idx → ∀ t, t < v.arr.shape.getD i 0 → v'.arr.val idx = v.arr.val (idx.set i t)

/-- `v'` is `v` for `n` turbines: nothing changes without turbines; else the turbine axis has `n` entries, and at each of them the value that `v` has at any of its
turbines -/
def Resized (n : Nat) (v v' : Var V) : Prop := ResizedAxis n v v' ∧ (v.dims.idxOf? "turbine" = none → v' = v)

/-- a variable that can be given to another number of turbines -/
def Suits (v : Var V) : Prop :=
  ∀ i, v.dims.idxOf? "turbine" = some i →
    2 ≤ v.dims.length ∧ ((i = 1 ∧ 0 < v.arr.shape.getD 1 0 ∧ Free 1 v.arr) ∨ (i ≠ 1 ∧ v.arr.shape.getD i 0 = 1))

/-- all stored variables, with the key of the model and the name -/
def entries (models : List (String × IData V)) : List (String × String × Var V) :=
  models.flatMap fun p => p.2.vars.map fun q => (p.1, q.1, q.2)

/-- the keys of the flags differ -/
def KeysDiffer (models : List (String × IData V)) : Prop := ((entries models).map fun e => flagKey e.1 e.2.1).Nodup

/-- same names, and the variables in relation `R` -/
def Each (R : Var V → Var V → Prop) (a b : List (String × IData V)) : Prop :=
  List.Forall₂ (fun e e' => e'.1 = e.1 ∧ e'.2.1 = e.2.1 ∧ R e.2.2 e'.2.2) (entries a) (entries b)

/-! ### dictionaries -/

theorem lookup_cons' {A : Type} (l : List (String × A)) (a k : String) (b : A) :
    ((a, b) :: l).lookup k = if k = a then some b else l.lookup k := by
  rw [List.lookup_cons]
  by_cases h : k = a
  · simp [h]
  · rw [if_neg h, beq_false_of_ne h]

theorem lookup_append {A : Type} (l e : List (String × A)) (k : String) :
    (l ++ e).lookup k = (l.lookup k).or (e.lookup k) := by
  induction l with
  | nil => simp
  | cons p l ih => obtain ⟨a, b⟩ := p; rw [List.cons_append, lookup_cons', lookup_cons', ih]; split <;> simp

theorem lookup_map_set {A : Type} (l : List (String × A)) (k k' : String) (v : A) :
    (l.map fun p => if p.1 = k then (k, v) else p).lookup k' = if k' = k then (l.lookup k).map fun _ => v else l.lookup k' := by
  induction l with
  | nil => simp
  | cons p l ih =>
    obtain ⟨a, b⟩ := p
    rw [List.map_cons, lookup_cons', lookup_cons']
    by_cases h : a = k
    · subst h
      by_cases h' : k' = a
      · subst h'; simp
      · simp only [if_true, lookup_cons', ih, h', if_false]
    · simp only [h, if_false, lookup_cons', ih]
      by_cases h' : k' = k
      · subst h'; simp [Ne.symm h]
      · simp [h']

theorem lookup_setKey {A : Type} (l : List (String × A)) (k k' : String) (v : A) :
    (setKey l k v).lookup k' = if k' = k then some v else l.lookup k' := by
  unfold setKey
  split
  · next h =>
    rw [lookup_map_set]
    split
    · obtain ⟨x, hx⟩ := Option.isSome_iff_exists.1 h; simp [hx]
    · rfl
  · next h =>
    simp only [Option.not_isSome_iff_eq_none] at h
    rw [lookup_append]
    by_cases h' : k' = k
    · subst h'; simp [h]
    · simp [lookup_cons', h']

theorem mem_setKey {A : Type} {l : List (String × A)} {k k' : String} {v v' : A} (h : (k', v') ∈ setKey l k v) :
    (k' = k ∧ v' = v) ∨ (k', v') ∈ l := by
  unfold setKey at h
  split at h
  · simp only [List.mem_map, Prod.exists] at h
    obtain ⟨a, b, hab, he⟩ := h
    split at he
    · simp at he; left; exact ⟨he.1.symm, he.2.symm⟩
    · simp at he; right; rw [← he.1, ← he.2]; exact hab
  · simp at h; tauto

theorem lookup_updKeys {A : Type} (e : List (String × A)) (l : List (String × A)) (k : String) :
    (∀ v, (updKeys l e).lookup k = some v → l.lookup k = some v ∨ (k, v) ∈ e) ∧
    ((l.lookup k).isSome ∨ (∃ v, (k, v) ∈ e) → ((updKeys l e).lookup k).isSome) := by
  unfold updKeys
  induction e generalizing l with
  | nil => simp
  | cons p e ih =>
    obtain ⟨a, b⟩ := p
    simp only [List.foldl_cons]
    obtain ⟨h1, h2⟩ := ih (setKey l a b)
    constructor
    · intro v hv
      rcases h1 v hv with h | h
      · rw [lookup_setKey] at h
        split at h
        · next hk => simp at h; subst hk h; right; simp
        · left; exact h
      · right; simp [h]
    · intro h
      apply h2
      rw [lookup_setKey]
      by_cases hk : k = a
      · left; simp [hk]
      · rcases h with h | ⟨v, h⟩
        · left; simp [hk, h]
        · simp [hk] at h; right; exact ⟨v, h⟩

/-! ### storing, reading, removing -/

/-- What is stored is read back; other models are not touched; stored data are replaced only on demand -/
theorem C87_store (s : Store V) (cls name : String) (d : IData V) (force : Bool) :
    (∀ s', store s cls name d force = .ok s' →
        fetch s' cls name = .ok d ∧ s'.nTurbines = s.nTurbines ∧
        ∀ cls' name', modelKey cls' name' ≠ modelKey cls name → fetch s' cls' name' = fetch s cls' name') ∧
    (store s cls name d force = .error .key ↔ force = false ∧ ∃ d0, fetch s cls name = .ok d0) := by
  constructor
  · intro s' h
    have hs : s' = { s with models := setKey s.models (modelKey cls name) d } := by
      unfold store at h
      split at h
      · simpa using h.symm
      · split at h
        · simp at h
        · simpa using h.symm
    subst hs
    refine ⟨by simp [fetch, lookup_setKey], rfl, ?_⟩
    intro cls' name' hne
    simp [fetch, lookup_setKey, hne]
  · unfold store fetch
    cases force
    · cases h : s.models.lookup (modelKey cls name) <;> simp
    · simp

/-- Removed data cannot be read again, other models are not touched; what is not stored cannot be removed -/
theorem C87_delete (s : Store V) (cls name : String) :
    (∀ s', delete s cls name = .ok s' →
        fetch s' cls name = .error .key ∧
        ∀ cls' name', modelKey cls' name' ≠ modelKey cls name → fetch s' cls' name' = fetch s cls' name') ∧
    (delete s cls name = .error .key ↔ fetch s cls name = .error .key) := by
  have hf : ∀ (l : List (String × IData V)) (k k' : String),
      (l.filter fun p => p.1 ≠ k).lookup k' = if k' = k then none else l.lookup k' := by
    intro l k k'
    induction l with
    | nil => simp
    | cons p l ih =>
      obtain ⟨a, b⟩ := p
      by_cases h : a = k
      · rw [List.filter_cons_of_neg (by simp [h]), ih, lookup_cons']
        split
        · rfl
        · next h' => rw [if_neg (by rw [h]; exact h')]
      · rw [List.filter_cons_of_pos (by simp [h]), lookup_cons', lookup_cons', ih]
        by_cases h' : k' = a
        · subst h'; simp [h]
        · simp [h']
  constructor
  · intro s' h
    unfold delete at h
    split at h
    · simp only [Except.ok.injEq] at h
      subst h
      refine ⟨by simp only [fetch, hf]; simp, ?_⟩
      intro cls' name' hne
      simp only [fetch, hf]
      rw [if_neg hne]
    · simp at h
  · unfold delete fetch
    cases h : s.models.lookup (modelKey cls name) <;> simp

/-! ### indices and equal slices -/

theorem mem_indices (s idx : List Nat) : idx ∈ indices s ↔ InBounds s idx := by
  unfold InBounds
  induction s generalizing idx with
  | nil => simp [indices]
  | cons n s ih =>
    cases idx with
    | nil => simp [indices]
    | cons a idx => simp [indices, ih]

theorem inb_len {s idx : List Nat} (h : InBounds s idx) : idx.length = s.length := h.length_eq

theorem inb_get {s idx : List Nat} (h : InBounds s idx) (i : Nat) (hi : i < s.length) : idx.getD i 0 < s.getD i 0 := by
  unfold InBounds at h
  have hl := h.length_eq
  rw [List.forall₂_iff_get] at h
  have := h.2 i (by omega) hi
  simpa [hl, hi, show i < idx.length by omega] using this

theorem inb_set {s idx : List Nat} (h : InBounds s idx) (i n t : Nat) (ht : t < n) :
    InBounds (s.set i n) (idx.set i t) := by
  unfold InBounds at *
  induction h generalizing i with
  | nil => simp
  | cons hab _ ih =>
    cases i with
    | zero => simp; exact ⟨ht, by assumption⟩
    | succ i => simp only [List.set_cons_succ]; exact .cons hab (ih i)

theorem set_getD (l : List Nat) (i : Nat) : l.set i (l.getD i 0) = l := by
  by_cases h : i < l.length
  · simp [h]
  · exact List.set_eq_of_length_le (by omega)

theorem getD_set (l : List Nat) (i j n : Nat) : (l.set i n).getD j 0 = if j = i ∧ i < l.length then n else l.getD j 0 := by
  simp only [List.getD_eq_getElem?_getD, List.getElem?_set]
  by_cases h : i = j
  · subst h
    by_cases h' : i < l.length <;> simp [h']
  · simp [h, Ne.symm h]

theorem inb_unset {s idx : List Nat} (i n t : Nat) (h : InBounds (s.set i n) idx) (ht : t < s.getD i 0) :
    InBounds s (idx.set i t) := by
  have := inb_set h i (s.getD i 0) t ht
  rwa [List.set_set, set_getD] at this

theorem dedup_one {A : Type} [DecidableEq A] (n : Nat) (f : Nat → A) :
    ((List.range n).map f).dedup.length = 1 ↔ 0 < n ∧ ∀ j < n, f j = f 0 := by
  constructor
  · intro h
    obtain ⟨x, hx⟩ := List.length_eq_one_iff.1 h
    have hm : ∀ y, y ∈ (List.range n).map f ↔ y = x := by
      intro y; rw [← List.mem_dedup, hx]; simp
    have hn : 0 < n := by
      rcases Nat.eq_zero_or_pos n with h0 | h0
      · subst h0; simp at hx
      · exact h0
    have hf : ∀ j < n, f j = x := fun j hj => (hm _).1 (List.mem_map.2 ⟨j, by simpa using hj, rfl⟩)
    exact ⟨hn, fun j hj => by rw [hf j hj, hf 0 hn]⟩
  · rintro ⟨hn, h⟩
    have : (List.range n).map f = List.replicate n (f 0) := by
      rw [List.eq_replicate_iff]
      refine ⟨by simp, ?_⟩
      intro b hb
      obtain ⟨j, hj, rfl⟩ := List.mem_map.1 hb
      exact h j (by simpa using hj)
    rw [this, List.replicate_dedup (by omega)]
    rfl

theorem slabs_iff [DecidableEq V] (a : Arr V) (h2 : 2 ≤ a.shape.length) :
    (∀ j < a.shape.getD 1 0, slab a j = slab a 0) ↔ Free 1 a := by
  unfold slab Free
  constructor
  · intro h idx t hb ht
    have h1 := h t ht
    have hg := inb_get hb 1 (by omega)
    have h0 := h _ hg
    rw [List.map_inj_left] at h1 h0
    have hm : idx.set 1 0 ∈ indices (a.shape.set 1 1) := (mem_indices _ _).2 (inb_set hb 1 1 0 (by omega))
    have e1 := h1 _ hm
    have e0 := h0 _ hm
    simp only [List.set_set] at e1 e0
    rw [e1, ← e0, set_getD]
  · intro h j hj
    rw [List.map_inj_left]
    intro idx hm
    have hb := inb_unset 1 1 0 ((mem_indices _ _).1 hm) (by omega)
    have := h _ j hb hj
    rwa [List.set_set] at this

theorem idx_lt {dims : List String} {i : Nat} (h : dims.idxOf? "turbine" = some i) : i < dims.length := by
  rw [List.idxOf?_eq_some_iff] at h
  exact h.1

theorem sameAtAll_none [DecidableEq V] (v : Var V) : sameAtAll v = .ok none ↔ v.dims.idxOf? "turbine" = none := by
  unfold sameAtAll
  cases v.dims.idxOf? "turbine" with
  | none => simp
  | some i => simp only; cases uniqueShape v.arr <;> simp

/-- The check in the words of the specification -/
theorem sameAtAll_true [DecidableEq V] (v : Var V) (hw : Well v) :
    (sameAtAll v = .ok none ∨ sameAtAll v = .ok (some true)) ↔ Suits v := by
  unfold Suits
  rw [sameAtAll_none]
  cases hi : v.dims.idxOf? "turbine" with
  | none => simp
  | some i =>
    have hlt := idx_lt hi
    unfold Well at hw
    simp only [sameAtAll, hi]
    match hs : v.arr.shape with
    | [] => simp [hs] at hw; omega
    | [n] =>
      simp only [hs, List.length_singleton] at hw
      simp [uniqueShape, hs]
      omega
    | n0 :: n :: r =>
      have h2 : 2 ≤ v.arr.shape.length := by simp [hs]
      have hg1 : v.arr.shape.getD 1 0 = n := by simp [hs]
      have key := slabs_iff v.arr h2
      rw [hg1] at key
      have hu : uniqueShape v.arr = some (v.arr.shape.set 1 (((List.range n).map (slab v.arr)).dedup.length)) := by
        unfold uniqueShape; rw [hs]
      rw [hu]
      have hd : 2 ≤ v.dims.length := by omega
      rw [← hs]
      simp only [Except.ok.injEq, Option.some.injEq, decide_eq_true_eq, getD_set, reduceCtorEq, false_or, hd, true_and,
        forall_eq', hg1]
      by_cases h1 : i = 1
      · subst h1
        have : 1 < v.arr.shape.length := by omega
        simp only [this, and_self, if_true, true_and, ne_eq, not_true_eq_false, false_and, or_false]
        rw [dedup_one, key]
      · simp [h1]

theorem suits_free {v : Var V} (hw : Well v) (h : Suits v) {i : Nat} (hi : v.dims.idxOf? "turbine" = some i) :
    Free i v.arr ∧ 0 < v.arr.shape.getD i 0 := by
  obtain ⟨_, h | h⟩ := h i hi
  · obtain ⟨rfl, h1, h2⟩ := h; exact ⟨h2, h1⟩
  · refine ⟨?_, by omega⟩
    intro idx t hb ht
    have hlt := idx_lt hi
    have := inb_get hb i (by unfold Well at hw; omega)
    have e : t = idx.getD i 0 := by omega
    rw [e, set_getD]

theorem resize_ok (n i : Nat) (a : Arr V) (hn : 0 < n) (hi : i < a.shape.length) (hf : Free i a) (h0 : 0 < a.shape.getD i 0) :
    ∃ a', resize n i a = .ok a' ∧ a'.shape = a.shape.set i n ∧
      ∀ idx, InBounds a'.shape idx → ∀ t, t < a.shape.getD i 0 → a'.val idx = a.val (idx.set i t) := by
  unfold resize
  simp only
  split
  · next h =>
    rw [if_neg (by omega)]
    refine ⟨_, rfl, rfl, ?_⟩
    intro idx hb t ht
    simp only at hb ⊢
    have hg := inb_get hb i (by simpa using hi)
    rw [getD_set] at hg
    simp only [hi, and_self, if_true] at hg
    have hb' := inb_unset i n (idx.getD i 0) hb (by omega)
    rw [set_getD] at hb'
    exact (hf _ _ hb' ht).symm
  · split
    · next h h' =>
      rw [if_neg (by omega)]
      refine ⟨_, rfl, rfl, ?_⟩
      intro idx hb t ht
      simp only at hb ⊢
      split
      · next hg =>
        have hb' := inb_unset i n (idx.getD i 0) hb hg
        rw [set_getD] at hb'
        exact (hf _ _ hb' ht).symm
      · have hb' := inb_unset i n (a.shape.getD i 0 - 1) hb (by omega)
        have := hf _ t hb' ht
        rw [List.set_set] at this
        exact this.symm
    · next h h' =>
      have e : n = a.shape.getD i 0 := by omega
      refine ⟨_, rfl, by rw [e, set_getD], ?_⟩
      intro idx hb t ht
      exact (hf _ _ hb ht).symm

theorem resized_free {n : Nat} {v v' : Var V} {i : Nat} (hw : Well v) (hi : v.dims.idxOf? "turbine" = some i)
    (h : ResizedAxis n v v') (h0 : 0 < v.arr.shape.getD i 0) : Free i v'.arr ∧ v'.arr.shape.getD i 0 = n := by
  obtain ⟨hs, hv⟩ := h.2 i hi
  have hlt : i < v.arr.shape.length := by have := idx_lt hi; unfold Well at hw; omega
  have hg : v'.arr.shape.getD i 0 = n := by rw [hs, getD_set]; simp [hlt]
  refine ⟨?_, hg⟩
  intro idx t hb ht
  have hb' := inb_set hb i n t (by omega)
  rw [hs, List.set_set, ← hs] at hb'
  rw [hv _ hb' 0 h0, hv _ hb 0 h0, List.set_set]

theorem resized_well {n : Nat} {v v' : Var V} (hw : Well v) (h : ResizedAxis n v v') (hno : v.dims.idxOf? "turbine" = none → v' = v) :
    Well v' := by
  unfold Well at *
  cases hi : v.dims.idxOf? "turbine" with
  | none => rw [hno hi]; exact hw
  | some i => rw [(h.2 i hi).1, h.1]; simpa using hw

/-- a flag that is right about a variable -/
def Fit (ok : Option Bool) (v : Var V) : Prop :=
  match ok with
  | none => v.dims.idxOf? "turbine" = none
  | some true => ∃ i, v.dims.idxOf? "turbine" = some i ∧ Free i v.arr ∧ 0 < v.arr.shape.getD i 0
  | some false => False

theorem fit_step {ok : Option Bool} {n : Nat} (hn : 0 < n) {v v' : Var V} (hw : Well v) (h : Fit ok v) (hs : Resized n v v') : Fit ok v' := by
  match ok with
  | none => unfold Fit at *; rw [hs.1.1]; exact h
  | some true =>
    obtain ⟨i, hi, hf, h0⟩ := h
    obtain ⟨h1, h2⟩ := resized_free hw hi hs.1 h0
    exact ⟨i, by rw [hs.1.1]; exact hi, h1, by omega⟩
  | some false => exact h.elim

/-- flags that are right about all variables they belong to -/
def FlagsRight (flags : List (String × Option Bool)) (m : String) (vars : List (String × Var V)) : Prop :=
  ∀ q ∈ vars, Well q.2 ∧ ∀ ok, flags.lookup (flagKey m q.1) = some ok → Fit ok q.2

theorem sameAtAll_fit [DecidableEq V] {v : Var V} (hw : Well v) {ok : Option Bool} (h : sameAtAll v = .ok ok) (hok : ok ≠ some false) : Fit ok v := by
  match ok with
  | none => exact (sameAtAll_none v).1 h
  | some true =>
    have hs := (sameAtAll_true v hw).1 (.inr h)
    have hne : v.dims.idxOf? "turbine" ≠ none := fun hc => by rw [(sameAtAll_none v).2 hc] at h; simp at h
    obtain ⟨i, hi⟩ := Option.ne_none_iff_exists'.1 hne
    obtain ⟨h1, h2⟩ := suits_free hw hs hi
    exact ⟨i, hi, h1, h2⟩
  | some false => exact (hok rfl).elim

/-- the flag of a variable, with right flags: either it is known or it is found now -/
theorem flagOf_ok [DecidableEq V] {flags newk : List (String × Option Bool)} {k : String} {v : Var V} (hw : Well v)
    (hf : ∀ ok, flags.lookup k = some ok → Fit ok v) {ok : Option Bool} {nk : List (String × Option Bool)}
    (h : flagOf flags newk k v = .ok (ok, nk)) (hok : ok ≠ some false) :
    Fit ok v ∧ ((flags.lookup k = some ok ∧ nk = newk) ∨ (flags.lookup k = none ∧ nk = setKey newk k ok)) := by
  unfold flagOf at h
  cases hl : flags.lookup k with
  | some o =>
    simp only [hl, Except.ok.injEq, Prod.mk.injEq] at h
    obtain ⟨rfl, rfl⟩ := h
    exact ⟨hf _ hl, .inl ⟨rfl, rfl⟩⟩
  | none =>
    simp only [hl] at h
    cases hs : sameAtAll v with
    | error e => simp [hs] at h
    | ok o =>
      simp only [hs, Except.ok.injEq, Prod.mk.injEq] at h
      obtain ⟨rfl, rfl⟩ := h
      exact ⟨sameAtAll_fit hw hs hok, .inr ⟨rfl, rfl⟩⟩

/-- the loop over the variables if there is no error -/
theorem loopVars_ok [DecidableEq V] (n : Nat) (hn : 0 < n) (flags : List (String × Option Bool)) (m : String) (vars : List (String × Var V))
    (coords : List (String × List Nat)) (newk : List (String × Option Bool)) (hr : FlagsRight flags m vars)
    (h : (loopVars n flags m vars coords newk).err = none) :
    List.Forall₂ (fun q q' => q'.1 = q.1 ∧ Resized n q.2 q'.2) vars (loopVars n flags m vars coords newk).vars ∧
    (∀ k ok, (k, ok) ∈ (loopVars n flags m vars coords newk).newk → (k, ok) ∈ newk ∨ ∃ q ∈ vars, k = flagKey m q.1 ∧ Fit ok q.2) ∧
    (∀ k, (newk.lookup k).isSome → ((loopVars n flags m vars coords newk).newk.lookup k).isSome) ∧
    (∀ q ∈ vars, flags.lookup (flagKey m q.1) = none → ((loopVars n flags m vars coords newk).newk.lookup (flagKey m q.1)).isSome) := by
  induction vars generalizing coords newk with
  | nil => simp [loopVars]
  | cons q rest ih =>
    obtain ⟨d, v⟩ := q
    have hq := hr (d, v) (by simp)
    have hrest : FlagsRight flags m rest := fun q hq => hr q (by simp [hq])
    have hdone : ∀ (v' : Var V) (coords' : List (String × List Nat)) (ok : Option Bool) (nk : List (String × Option Bool)),
        Resized n v v' → Fit ok v →
        ((flags.lookup (flagKey m d) = some ok ∧ nk = newk) ∨ (flags.lookup (flagKey m d) = none ∧ nk = setKey newk (flagKey m d) ok)) →
        loopVars n flags m ((d, v) :: rest) coords newk =
          { loopVars n flags m rest coords' nk with vars := (d, v') :: (loopVars n flags m rest coords' nk).vars } →
        List.Forall₂ (fun q q' => q'.1 = q.1 ∧ Resized n q.2 q'.2) ((d, v) :: rest) (loopVars n flags m ((d, v) :: rest) coords newk).vars ∧
        (∀ k ok, (k, ok) ∈ (loopVars n flags m ((d, v) :: rest) coords newk).newk →
          (k, ok) ∈ newk ∨ ∃ q ∈ (d, v) :: rest, k = flagKey m q.1 ∧ Fit ok q.2) ∧
        (∀ k, (newk.lookup k).isSome → ((loopVars n flags m ((d, v) :: rest) coords newk).newk.lookup k).isSome) ∧
        (∀ q ∈ (d, v) :: rest, flags.lookup (flagKey m q.1) = none →
          ((loopVars n flags m ((d, v) :: rest) coords newk).newk.lookup (flagKey m q.1)).isSome) := by
      intro v' coords' ok nk hst hfit hnk he
      have hnone : (loopVars n flags m rest coords' nk).err = none := by rw [he] at h; simpa using h
      obtain ⟨i1, i2, i3, i4⟩ := ih coords' nk hrest hnone
      rw [he]
      refine ⟨?_, ?_, ?_, ?_⟩
      · exact .cons ⟨rfl, hst⟩ i1
      · intro k o hk
        rcases i2 k o hk with h' | ⟨q, hq, h'⟩
        · rcases hnk with ⟨_, rfl⟩ | ⟨_, rfl⟩
          · exact .inl h'
          · rcases mem_setKey h' with ⟨rfl, rfl⟩ | h'
            · exact .inr ⟨(d, v), by simp, rfl, hfit⟩
            · exact .inl h'
        · exact .inr ⟨q, by simp [hq], h'⟩
      · intro k hk
        apply i3
        rcases hnk with ⟨_, rfl⟩ | ⟨_, rfl⟩
        · exact hk
        · rw [lookup_setKey]; split
          · simp
          · exact hk
      · intro q hq hl
        rcases List.mem_cons.1 hq with rfl | hq
        · apply i3
          rcases hnk with ⟨hc, _⟩ | ⟨_, rfl⟩
          · simp only at hl; rw [hl] at hc; simp at hc
          · rw [lookup_setKey]; simp
        · exact i4 q hq hl
    rw [loopVars] at h
    cases hf : flagOf flags newk (flagKey m d) v with
    | error e => simp [hf] at h
    | ok r =>
      obtain ⟨ok, nk⟩ := r
      match ok with
      | none =>
        obtain ⟨f1, f2⟩ := flagOf_ok hq.1 hq.2 hf (by simp)
        refine hdone v coords none nk ⟨⟨rfl, ?_⟩, fun _ => rfl⟩ f1 f2 ?_
        · intro i hi
          rw [show v.dims.idxOf? "turbine" = none from f1] at hi
          simp at hi
        · rw [loopVars]; simp [hf]
      | some false => simp [hf] at h
      | some true =>
        obtain ⟨f1, f2⟩ := flagOf_ok hq.1 hq.2 hf (by simp)
        obtain ⟨i, hi, hfr, h0⟩ := f1
        simp only at hi hfr h0
        have hlt : i < v.arr.shape.length := by have := idx_lt hi; have h3 : v.arr.shape.length = v.dims.length := hq.1; have h4 : i < v.dims.length := this; omega
        obtain ⟨a', ha, hs, hv⟩ := resize_ok n i v.arr hn hlt hfr h0
        refine hdone ⟨v.dims, a'⟩ (newCoords n coords) (some true) nk ⟨⟨rfl, ?_⟩, ?_⟩ ⟨i, hi, hfr, h0⟩ f2 ?_
        · intro j hj
          rw [hi] at hj
          simp only [Option.some.injEq] at hj
          subst hj
          exact ⟨hs, hv⟩
        · intro hc; rw [hi] at hc; simp at hc
        · rw [loopVars]; simp [hf, hi, ha]

/-- the loop over the models if there is no error -/
theorem loopModels_ok [DecidableEq V] (n : Nat) (hn : 0 < n) (flags : List (String × Option Bool)) (models : List (String × IData V))
    (newk : List (String × Option Bool)) (hr : ∀ p ∈ models, FlagsRight flags p.1 p.2.vars) (h : (loopModels n flags models newk).2.2 = none) :
    Each (Resized n) models (loopModels n flags models newk).1 ∧
    (∀ k ok, (k, ok) ∈ (loopModels n flags models newk).2.1 → (k, ok) ∈ newk ∨ ∃ e ∈ entries models, k = flagKey e.1 e.2.1 ∧ Fit ok e.2.2) ∧
    (∀ k, (newk.lookup k).isSome → ((loopModels n flags models newk).2.1.lookup k).isSome) ∧
    (∀ e ∈ entries models, flags.lookup (flagKey e.1 e.2.1) = none →
      ((loopModels n flags models newk).2.1.lookup (flagKey e.1 e.2.1)).isSome) := by
  induction models generalizing newk with
  | nil => simp [loopModels, Each, entries]
  | cons p rest ih =>
    obtain ⟨m, d⟩ := p
    have hp := hr (m, d) (by simp)
    rw [loopModels] at h ⊢
    simp only at h ⊢
    cases he : (loopVars n flags m d.vars d.coords newk).err with
    | some e => simp [he] at h
    | none =>
      simp only [he] at h ⊢
      obtain ⟨v1, v2, v3, v4⟩ := loopVars_ok n hn flags m d.vars d.coords newk hp he
      obtain ⟨i1, i2, i3, i4⟩ := ih _ (fun p hp => hr p (by simp [hp])) h
      refine ⟨?_, ?_, ?_, ?_⟩
      · unfold Each entries at *
        simp only [List.flatMap_cons]
        refine List.rel_append ?_ i1
        rw [List.forall₂_map_left_iff, List.forall₂_map_right_iff]
        exact v1.imp fun q q' hq => ⟨rfl, hq.1, hq.2⟩
      · intro k ok hk
        rcases i2 k ok hk with h' | ⟨e, hm, h'⟩
        · rcases v2 k ok h' with h'' | ⟨q, hq, h''⟩
          · exact .inl h''
          · exact .inr ⟨(m, q.1, q.2), by simp [entries]; exact .inl hq, h''⟩
        · refine .inr ⟨e, ?_, h'⟩
          unfold entries at hm ⊢
          rw [List.flatMap_cons]
          exact List.mem_append_right _ hm
      · intro k hk
        exact i3 k (v3 k hk)
      · intro e hm hl
        unfold entries at hm
        rw [List.flatMap_cons] at hm
        rcases List.mem_append.1 hm with hm | hm
        · obtain ⟨q, hq, rfl⟩ := List.mem_map.1 hm
          exact i3 _ (v4 q hq hl)
        · exact i4 e hm hl

/-! ### a farm with another number of turbines -/

/-- what is known between the changes: sizes match dimensions, and the flags are right -/
def Inv (s : Store V) : Prop := ∀ p ∈ s.models, FlagsRight s.flags p.1 p.2.vars

/-- all flags are known -/
def Known (s : Store V) : Prop := ∀ e ∈ entries s.models, (s.flags.lookup (flagKey e.1 e.2.1)).isSome

theorem inv_iff (s : Store V) : Inv s ↔
    ∀ e ∈ entries s.models, Well e.2.2 ∧ ∀ ok, s.flags.lookup (flagKey e.1 e.2.1) = some ok → Fit ok e.2.2 := by
  unfold Inv FlagsRight entries
  simp only [List.mem_flatMap, List.mem_map, forall_exists_index, and_imp]
  constructor
  · rintro h e p hp q hq rfl; exact h p hp q hq
  · intro h p hp q hq; exact h _ p hp q hq rfl

theorem forall2_mem_right {A B : Type} {R : A → B → Prop} {l : List A} {m : List B} (h : List.Forall₂ R l m) {b : B} (hb : b ∈ m) :
    ∃ a ∈ l, R a b := by
  induction h with
  | nil => simp at hb
  | cons hab _ ih =>
    rcases List.mem_cons.1 hb with rfl | hb
    · exact ⟨_, by simp, hab⟩
    · obtain ⟨a, ha, hr⟩ := ih hb; exact ⟨a, by simp [ha], hr⟩

theorem each_keys {R : Var V → Var V → Prop} {a b : List (String × IData V)} (h : Each R a b) :
    (entries b).map (fun e => flagKey e.1 e.2.1) = (entries a).map fun e => flagKey e.1 e.2.1 := by
  unfold Each at h
  generalize entries a = la at h ⊢
  generalize entries b = lb at h ⊢
  induction h with
  | nil => rfl
  | cons hab _ ih => simp [ih, hab.1, hab.2.1]

/-- one change, with right flags -/
theorem update_ok [DecidableEq V] (s : Store V) (n : Nat) (hn : 0 < n) (hne : s.nTurbines ≠ n) (hi : Inv s) (hk : KeysDiffer s.models)
    (h : (update s n).2 = none) :
    Each (Resized n) s.models (update s n).1.models ∧ (update s n).1.nTurbines = n ∧ Inv (update s n).1 ∧ Known (update s n).1 ∧
    KeysDiffer (update s n).1.models := by
  have hl : (loopModels n s.flags s.models []).2.2 = none := by
    unfold update at h
    simp only [hne, if_false] at h
    cases hc : (loopModels n s.flags s.models []).2.2 with
    | none => rfl
    | some e => simp [hc] at h
  have hu : (update s n).1 = ⟨n, (loopModels n s.flags s.models []).1, updKeys s.flags (loopModels n s.flags s.models []).2.1⟩ := by
    unfold update; simp [hne, hl]
  rw [hu]
  obtain ⟨h1, h2, _, h4⟩ := loopModels_ok n hn s.flags s.models [] hi hl
  have hinv := (inv_iff s).1 hi
  refine ⟨h1, rfl, ?_, ?_, ?_⟩
  · rw [inv_iff]
    intro e he
    obtain ⟨e0, he0, e1, e2, hst⟩ := forall2_mem_right h1 he
    have hw := (hinv e0 he0).1
    refine ⟨resized_well hw hst.1 hst.2, ?_⟩
    intro ok hok
    simp only at hok
    rw [e1, e2] at hok
    rcases (lookup_updKeys _ _ _).1 ok hok with hl' | hm
    · exact fit_step hn hw ((hinv e0 he0).2 ok hl') hst
    · rcases h2 _ _ hm with hc | ⟨e', he', hkey, hfit⟩
      · simp at hc
      · have : e0 = e' := List.inj_on_of_nodup_map hk he0 he' hkey
        subst this
        exact fit_step hn hw hfit hst
  · intro e he
    obtain ⟨e0, he0, e1, e2, hst⟩ := forall2_mem_right h1 he
    rw [e1, e2]
    apply (lookup_updKeys _ _ _).2
    cases hl' : s.flags.lookup (flagKey e0.1 e0.2.1) with
    | some o => left; rfl
    | none =>
      right
      obtain ⟨ok, hok⟩ := Option.isSome_iff_exists.1 (h4 e0 he0 hl')
      refine ⟨ok, ?_⟩
      have : ∀ (l : List (String × Option Bool)) k v, l.lookup k = some v → (k, v) ∈ l := by
        intro l k v
        induction l with
        | nil => simp
        | cons p l ih =>
          obtain ⟨a, b⟩ := p
          rw [lookup_cons']
          split
          · next hh => intro h; simp at h; subst hh h; simp
          · intro h; exact List.mem_cons_of_mem _ (ih h)
      exact this _ _ _ hok
  · unfold KeysDiffer
    rw [each_keys h1]
    exact hk

/-- If nothing was checked before: the change is accepted exactly if each variable suits. -/
theorem loopVars_fresh [DecidableEq V] (n : Nat) (hn : 0 < n) (m : String) (vars : List (String × Var V)) (coords : List (String × List Nat))
    (newk : List (String × Option Bool)) (hw : ∀ q ∈ vars, Well q.2) :
    (loopVars n [] m vars coords newk).err = none ↔ ∀ q ∈ vars, Suits q.2 := by
  induction vars generalizing coords newk with
  | nil => simp [loopVars]
  | cons q rest ih =>
    obtain ⟨d, v⟩ := q
    have hv : Well v := hw (d, v) (by simp)
    have ih := fun c k => ih c k (fun q hq => hw q (by simp [hq]))
    have hst := sameAtAll_true v hv
    simp only [List.forall_mem_cons]
    rw [loopVars]
    have hfl : flagOf [] newk (flagKey m d) v = match sameAtAll v with
      | .error e => .error e
      | .ok ok => .ok (ok, setKey newk (flagKey m d) ok) := by unfold flagOf; simp; rfl
    rw [hfl]
    cases hs : sameAtAll v with
    | error e => simp [hs] at hst; simp [hst]
    | ok ok =>
      match ok with
      | none => simp [hs] at hst; simp [hst, ih]
      | some false => simp [hs] at hst; simp [hst]
      | some true =>
        simp [hs] at hst
        obtain ⟨i, hi, hf, h0⟩ := sameAtAll_fit hv hs (by simp)
        have hlt : i < v.arr.shape.length := by have := idx_lt hi; unfold Well at hv; omega
        obtain ⟨a', ha, _⟩ := resize_ok n i v.arr hn hlt hf h0
        simp [hi, ha, hst, ih]

theorem loopModels_fresh [DecidableEq V] (n : Nat) (hn : 0 < n) (models : List (String × IData V)) (newk : List (String × Option Bool))
    (hw : ∀ e ∈ entries models, Well e.2.2) :
    (loopModels n [] models newk).2.2 = none ↔ ∀ e ∈ entries models, Suits e.2.2 := by
  induction models generalizing newk with
  | nil => simp [loopModels, entries]
  | cons p rest ih =>
    obtain ⟨m, d⟩ := p
    have hen : entries ((m, d) :: rest) = d.vars.map (fun q => (m, q.1, q.2)) ++ entries rest := by simp [entries]
    rw [hen] at hw ⊢
    have hw1 : ∀ q ∈ d.vars, Well q.2 := fun q hq => hw (m, q.1, q.2) (List.mem_append_left _ (List.mem_map.2 ⟨q, hq, rfl⟩))
    have hw2 : ∀ e ∈ entries rest, Well e.2.2 := fun e he => hw e (List.mem_append_right _ he)
    have hv := loopVars_fresh n hn m d.vars d.coords newk hw1
    simp only [List.forall_mem_append, List.forall_mem_map]
    rw [loopModels]
    simp only
    cases he : (loopVars n [] m d.vars d.coords newk).err with
    | some e =>
      simp only [he, reduceCtorEq, false_iff] at hv
      simp only [reduceCtorEq, false_iff]
      exact fun hc => hv hc.1
    | none =>
      simp only [he, true_iff] at hv
      simp only [ih _ hw2]
      exact ⟨fun h => ⟨hv, h⟩, fun h => h.2⟩

/-- Nothing happens if the number of turbines is the same -/
theorem C87_same [DecidableEq V] (s : Store V) : update s s.nTurbines = (s, none) := by simp [update]

/-- When nothing was checked before, another number of turbines is accepted exactly if each stored variable with a turbine dimension has at least two dimensions,
and either turbines are the second one and the values do not depend on them, or they are another one of size one -/
theorem C87_accepted_iff [DecidableEq V] (s : Store V) (n : Nat) (hn : 0 < n) (hne : s.nTurbines ≠ n) (hf : s.flags = [])
    (hw : ∀ e ∈ entries s.models, Well e.2.2) :
    (update s n).2 = none ↔ ∀ e ∈ entries s.models, Suits e.2.2 := by
  rw [← loopModels_fresh n hn s.models [] hw]
  unfold update
  simp only [hne, if_false, hf]
  cases (loopModels n [] s.models []).2.2 <;> simp

/-- After the first change of the farm all stored variables are those of the new number of turbines -/
theorem C87_resized [DecidableEq V] (s : Store V) (n : Nat) (hn : 0 < n) (hne : s.nTurbines ≠ n) (hf : s.flags = [])
    (hw : ∀ e ∈ entries s.models, Well e.2.2) (hk : KeysDiffer s.models) (h : (update s n).2 = none) :
    Each (Resized n) s.models (update s n).1.models ∧ (update s n).1.nTurbines = n := by
  have hi : Inv s := by rw [inv_iff]; intro e he; exact ⟨hw e he, by simp [hf]⟩
  obtain ⟨h1, h2, _⟩ := update_ok s n hn hne hi hk h
  exact ⟨h1, h2⟩

theorem step_trans {n m : Nat} (hn : 0 < n) {a b c : Var V} (hw : Well a) (h1 : Resized n a b) (h2 : Resized m b c) : Resized m a c := by
  refine ⟨⟨by rw [h2.1.1, h1.1.1], ?_⟩, ?_⟩
  · intro i hi
    have hb : b.dims.idxOf? "turbine" = some i := by rw [h1.1.1]; exact hi
    obtain ⟨s1, v1⟩ := h1.1.2 i hi
    obtain ⟨s2, v2⟩ := h2.1.2 i hb
    have hlt : i < a.arr.shape.length := by have := idx_lt hi; unfold Well at hw; omega
    have hg : b.arr.shape.getD i 0 = n := by rw [s1, getD_set]; simp [hlt]
    have hs : c.arr.shape = a.arr.shape.set i m := by rw [s2, s1, List.set_set]
    refine ⟨hs, ?_⟩
    intro idx hb' t ht
    rw [v2 idx hb' 0 (by omega)]
    have hib : InBounds b.arr.shape (idx.set i 0) := by
      rw [hs] at hb'
      have := inb_set hb' i n 0 hn
      rwa [List.set_set, ← s1] at this
    rw [v1 _ hib t ht, List.set_set]
  · intro hc
    have hb : b.dims.idxOf? "turbine" = none := by rw [h1.1.1]; exact hc
    rw [h2.2 hb, h1.2 hc]

theorem forall2_trans {A : Type} {R S T : A → A → Prop} {l m k : List A} (h1 : List.Forall₂ R l m) (h2 : List.Forall₂ S m k)
    (h : ∀ a ∈ l, ∀ b c, R a b → S b c → T a c) : List.Forall₂ T l k := by
  induction h1 generalizing k with
  | nil => cases h2; exact .nil
  | cons hab _ ih =>
    cases h2 with
    | cons hbc h2 => exact .cons (h _ (by simp) _ _ hab hbc) (ih h2 fun a ha => h a (by simp [ha]))

theorem updates_ok [DecidableEq V] (ns : List Nat) (s : Store V) (hn : ∀ n ∈ ns, 0 < n) (hi : Inv s) (hk : KeysDiffer s.models)
    (h : (updates s ns).2 = none) :
    ((updates s ns).1 = s ∧ (∀ n ∈ ns, n = s.nTurbines) ∨
      (Each (Resized (updates s ns).1.nTurbines) s.models (updates s ns).1.models ∧ Known (updates s ns).1)) ∧
    (updates s ns).1.nTurbines = ns.getLastD s.nTurbines ∧ Inv (updates s ns).1 ∧ KeysDiffer (updates s ns).1.models := by
  induction ns generalizing s with
  | nil => exact ⟨.inl ⟨rfl, by simp⟩, rfl, hi, hk⟩
  | cons n ns ih =>
    rw [updates] at h ⊢
    by_cases he : s.nTurbines = n
    · have hu : update s n = (s, none) := by rw [← he]; exact C87_same s
      rw [hu] at h ⊢
      simp only at h ⊢
      obtain ⟨h1, h2, h3⟩ := ih s (fun m hm => hn m (by simp [hm])) hi hk h
      refine ⟨?_, ?_, h3⟩
      · rcases h1 with h1 | h1
        · left; refine ⟨h1.1, ?_⟩; intro m hm; rcases List.mem_cons.1 hm with rfl | hm
          · exact he.symm
          · exact h1.2 m hm
        · right; exact h1
      · rw [h2, he, List.getLastD_cons]
    · cases hu : (update s n).2 with
      | some e =>
        rw [show update s n = ((update s n).1, some e) from by rw [← hu]] at h
        simp at h
      | none =>
        obtain ⟨s1, s2, s3, s4, s5⟩ := update_ok s n (hn n (by simp)) he hi hk hu
        rw [show update s n = ((update s n).1, none) from by rw [← hu]] at h ⊢
        simp only at h ⊢
        obtain ⟨h1, h2, h3⟩ := ih _ (fun m hm => hn m (by simp [hm])) s3 s5 h
        refine ⟨.inr ?_, ?_, h3⟩
        · rcases h1 with ⟨h1, _⟩ | ⟨h1, h1k⟩
          · rw [h1, s2]; exact ⟨s1, s4⟩
          · refine ⟨?_, h1k⟩
            unfold Each at *
            refine forall2_trans s1 h1 ?_
            rintro a ha b c ⟨a1, a2, a3⟩ ⟨b1, b2, b3⟩
            exact ⟨by rw [b1, a1], by rw [b2, a2], step_trans (hn n (by simp)) ((inv_iff s).1 hi a ha).1 a3 b3⟩
        · rw [h2, s2, List.getLastD_cons]

/-- Any number of changes: either the farm never changed, or all variables are those of the last number of turbines, with the values they had at first -/
theorem C87_history [DecidableEq V] (s : Store V) (ns : List Nat) (hn : ∀ n ∈ ns, 0 < n) (hf : s.flags = [])
    (hw : ∀ e ∈ entries s.models, Well e.2.2) (hk : KeysDiffer s.models) (h : (updates s ns).2 = none) :
    (updates s ns).1.nTurbines = ns.getLastD s.nTurbines ∧
    (((updates s ns).1 = s ∧ ∀ n ∈ ns, n = s.nTurbines) ∨ Each (Resized (ns.getLastD s.nTurbines)) s.models (updates s ns).1.models) := by
  have hi : Inv s := by rw [inv_iff]; intro e he; exact ⟨hw e he, by simp [hf]⟩
  obtain ⟨h1, h2, _⟩ := updates_ok ns s hn hi hk h
  refine ⟨h2, ?_⟩
  rcases h1 with h1 | ⟨h1, _⟩
  · exact .inl h1
  · right
    rw [← h2]
    exact h1

theorem loopVars_known [DecidableEq V] (n : Nat) (hn : 0 < n) (flags : List (String × Option Bool)) (m : String) (vars : List (String × Var V))
    (coords : List (String × List Nat)) (newk : List (String × Option Bool)) (hr : FlagsRight flags m vars)
    (hk : ∀ q ∈ vars, (flags.lookup (flagKey m q.1)).isSome) : (loopVars n flags m vars coords newk).err = none := by
  induction vars generalizing coords newk with
  | nil => rfl
  | cons q rest ih =>
    obtain ⟨d, v⟩ := q
    have ih := fun c k => ih c k (fun q hq => hr q (by simp [hq])) (fun q hq => hk q (by simp [hq]))
    obtain ⟨hw, hq⟩ := hr (d, v) (by simp)
    obtain ⟨ok, hok⟩ := Option.isSome_iff_exists.1 (hk (d, v) (by simp))
    simp only at hok hq hw
    have hfit := hq ok hok
    have hfl : flagOf flags newk (flagKey m d) v = .ok (ok, newk) := by unfold flagOf; rw [hok]
    rw [loopVars, hfl]
    match ok with
    | none => exact ih _ _
    | some false => exact hfit.elim
    | some true =>
      obtain ⟨i, hi, hf, h0⟩ := hfit
      have hlt : i < v.arr.shape.length := by have := idx_lt hi; unfold Well at hw; omega
      obtain ⟨a', ha, _⟩ := resize_ok n i v.arr hn hlt hf h0
      simp only [hi, ha]
      exact ih _ _

theorem loopModels_known [DecidableEq V] (n : Nat) (hn : 0 < n) (flags : List (String × Option Bool)) (models : List (String × IData V))
    (newk : List (String × Option Bool)) (hr : ∀ p ∈ models, FlagsRight flags p.1 p.2.vars)
    (hk : ∀ e ∈ entries models, (flags.lookup (flagKey e.1 e.2.1)).isSome) : (loopModels n flags models newk).2.2 = none := by
  induction models generalizing newk with
  | nil => rfl
  | cons p rest ih =>
    obtain ⟨m, d⟩ := p
    have hen : entries ((m, d) :: rest) = d.vars.map (fun q => (m, q.1, q.2)) ++ entries rest := by simp [entries]
    rw [hen] at hk
    have h1 := loopVars_known n hn flags m d.vars d.coords newk (hr (m, d) (by simp))
      (fun q hq => hk (m, q.1, q.2) (List.mem_append_left _ (List.mem_map.2 ⟨q, hq, rfl⟩)))
    rw [loopModels]
    simp only [h1]
    exact ih _ (fun p hp => hr p (by simp [hp])) (fun e he => hk e (List.mem_append_right _ he))

/-- Once a change has been accepted, every further one is -/
theorem C87_accepted_again [DecidableEq V] (s : Store V) (n : Nat) (ns : List Nat) (hn : 0 < n) (hne : s.nTurbines ≠ n) (hns : ∀ m ∈ ns, 0 < m)
    (hf : s.flags = []) (hw : ∀ e ∈ entries s.models, Well e.2.2) (hk : KeysDiffer s.models) (h : (update s n).2 = none) :
    (updates s (n :: ns)).2 = none := by
  have hi : Inv s := by rw [inv_iff]; intro e he; exact ⟨hw e he, by simp [hf]⟩
  obtain ⟨_, _, s3, s4, s5⟩ := update_ok s n hn hne hi hk h
  rw [updates, show update s n = ((update s n).1, none) from by rw [← h]]
  simp only
  generalize (update s n).1 = t at s3 s4 s5
  clear h
  induction ns generalizing t with
  | nil => rfl
  | cons m ns ih =>
    rw [updates]
    by_cases he : t.nTurbines = m
    · rw [show update t m = (t, none) from by rw [← he]; exact C87_same t]
      exact ih (fun k hk => hns k (by simp [hk])) t s3 s4 s5
    · have hu : (update t m).2 = none := by
        have := loopModels_known m (hns m (by simp)) t.flags t.models [] s3 s4
        unfold update
        simp [he, this]
      obtain ⟨_, _, t3, t4, t5⟩ := update_ok t m (hns m (by simp)) he s3 s5 hu
      rw [show update t m = ((update t m).1, none) from by rw [← hu]]
      exact ih (fun k hk => hns k (by simp [hk])) _ t3 t4 t5

/-- There and back: sizes and values are those of the start -/
theorem C87_there_and_back [DecidableEq V] (s : Store V) (ns : List Nat) (n : Nat) (h0 : s.nTurbines ≠ n) (hn : 0 < n) (hns : ∀ m ∈ ns, 0 < m)
    (hp : 0 < s.nTurbines) (hf : s.flags = [])
    (hw : ∀ e ∈ entries s.models, Well e.2.2 ∧ ∀ i, e.2.2.dims.idxOf? "turbine" = some i → e.2.2.arr.shape.getD i 0 = s.nTurbines)
    (hk : KeysDiffer s.models) (h : (update s n).2 = none) :
    let t := (updates s (n :: ns ++ [s.nTurbines])).1
    t.nTurbines = s.nTurbines ∧
    Each (fun v v' => v'.dims = v.dims ∧ v'.arr.shape = v.arr.shape ∧ ∀ idx, InBounds v.arr.shape idx → v'.arr.val idx = v.arr.val idx)
      s.models t.models := by
  intro t
  have hpos : ∀ m ∈ n :: ns ++ [s.nTurbines], 0 < m := by
    intro m hm
    simp only [List.cons_append, List.mem_cons, List.mem_append, List.not_mem_nil, or_false] at hm
    rcases hm with rfl | hm | rfl
    · exact hn
    · exact hns m hm
    · exact hp
  have hacc := C87_accepted_again s n (ns ++ [s.nTurbines]) hn h0
    (fun m hm => hpos m (by simp only [List.cons_append, List.mem_cons]; exact .inr hm)) hf (fun e he => (hw e he).1) hk h
  obtain ⟨h1, h2⟩ := C87_history s (n :: ns ++ [s.nTurbines]) hpos hf (fun e he => (hw e he).1) hk hacc
  have hlast : (n :: ns ++ [s.nTurbines]).getLastD s.nTurbines = s.nTurbines := by
    rw [List.getLastD_eq_getLast?, List.getLast?_append]; simp
  rw [hlast] at h1 h2
  refine ⟨h1, ?_⟩
  rcases h2 with ⟨_, hc⟩ | h2
  · exact (h0 (hc n (by simp)).symm).elim
  · have key : Each (fun v v' => (Resized s.nTurbines v v') ∧ ∀ i, v.dims.idxOf? "turbine" = some i → v.arr.shape.getD i 0 = s.nTurbines ∧ Well v)
        s.models t.models := by
      unfold Each at *
      have := forall2_trans (T := fun e e' => e'.1 = e.1 ∧ e'.2.1 = e.2.1 ∧ (Resized s.nTurbines e.2.2 e'.2.2) ∧
        ∀ i, e.2.2.dims.idxOf? "turbine" = some i → e.2.2.arr.shape.getD i 0 = s.nTurbines ∧ Well e.2.2)
        (List.forall₂_same.2 (fun e _ => (rfl : e = e))) h2
        (fun a ha b c hab hbc => by subst hab; exact ⟨hbc.1, hbc.2.1, hbc.2.2, fun i hi => ⟨(hw a ha).2 i hi, (hw a ha).1⟩⟩)
      exact this
    refine key.imp fun e e' hh => ⟨hh.1, hh.2.1, hh.2.2.1.1.1, ?_⟩
    cases hi : e.2.2.dims.idxOf? "turbine" with
    | none => rw [hh.2.2.1.2 hi]; exact ⟨rfl, fun _ _ => rfl⟩
    | some i =>
      obtain ⟨hs, hv⟩ := hh.2.2.1.1.2 i hi
      obtain ⟨hg, hwell⟩ := hh.2.2.2 i hi
      have hse : e'.2.2.arr.shape = e.2.2.arr.shape := by rw [hs, ← hg, set_getD]
      refine ⟨hse, ?_⟩
      intro idx hb
      have hlt : i < e.2.2.arr.shape.length := by have := idx_lt hi; unfold Well at hwell; omega
      rw [hv idx (by rw [hse]; exact hb) (idx.getD i 0) (inb_get hb i hlt), set_getD]


/-! ### coordinates -/

theorem newCoords_lookup (n : Nat) (coords : List (String × List Nat)) (c : String) :
    (newCoords n coords).lookup c = if c = "turbine" ∧ (coords.lookup "turbine").isSome then some (List.range n) else coords.lookup c := by
  unfold newCoords
  split
  · next h => rw [lookup_setKey]; simp [h]
  · next h => simp [h]

/-- The turbine coordinate of a model is renumbered if and only if it exists and some variable of the model has turbines; others stay -/
theorem C87_coords [DecidableEq V] (n : Nat) (hn : 0 < n) (flags : List (String × Option Bool)) (m : String) (vars : List (String × Var V))
    (coords : List (String × List Nat)) (newk : List (String × Option Bool)) (hr : FlagsRight flags m vars)
    (h : (loopVars n flags m vars coords newk).err = none) (c : String) :
    (loopVars n flags m vars coords newk).coords.lookup c =
      if c = "turbine" ∧ (coords.lookup "turbine").isSome ∧ ∃ q ∈ vars, "turbine" ∈ q.2.dims then some (List.range n) else coords.lookup c := by
  induction vars generalizing coords newk with
  | nil => simp [loopVars]
  | cons q rest ih =>
    obtain ⟨d, v⟩ := q
    obtain ⟨hw, hq⟩ := hr (d, v) (by simp)
    simp only at hw hq
    have ih := fun c k => ih c k (fun q hq => hr q (by simp [hq]))
    rw [loopVars] at h ⊢
    cases hf : flagOf flags newk (flagKey m d) v with
    | error e => simp [hf] at h
    | ok r =>
      obtain ⟨ok, nk⟩ := r
      match ok with
      | none =>
        obtain ⟨f1, _⟩ := flagOf_ok hw hq hf (by simp)
        have hno : "turbine" ∉ v.dims := by
          have : v.dims.idxOf? "turbine" = none := f1
          simpa using this
        rw [hf] at h
        have h' : (loopVars n flags m rest coords nk).err = none := h
        change (loopVars n flags m rest coords nk).coords.lookup c = _
        rw [ih _ _ h']
        have he : (∃ q ∈ (d, v) :: rest, "turbine" ∈ q.2.dims) ↔ ∃ q ∈ rest, "turbine" ∈ q.2.dims := by
          constructor
          · rintro ⟨q, hq, ht⟩
            rcases List.mem_cons.1 hq with rfl | hq
            · exact (hno ht).elim
            · exact ⟨q, hq, ht⟩
          · rintro ⟨q, hq, ht⟩; exact ⟨q, List.mem_cons_of_mem _ hq, ht⟩
        simp only [he]
      | some false => simp [hf] at h
      | some true =>
        obtain ⟨f1, _⟩ := flagOf_ok hw hq hf (by simp)
        obtain ⟨i, hi, hfr, h0⟩ := f1
        have hin : "turbine" ∈ v.dims := by
          by_contra hc
          have : v.dims.idxOf? "turbine" = none := by simpa using hc
          rw [hi] at this; simp at this
        have hlt : i < v.arr.shape.length := by have := idx_lt hi; unfold Well at hw; omega
        obtain ⟨a', ha, _⟩ := resize_ok n i v.arr hn hlt hfr h0
        rw [hf] at h
        simp only [hi, ha] at h ⊢
        rw [ih _ _ h, newCoords_lookup, newCoords_lookup]
        by_cases h1 : c = "turbine" <;> by_cases h2 : (coords.lookup "turbine").isSome <;> simp [h1, h2, hin]

/-! ### what the algorithm hands to the chunks -/

theorem updKeys_lookup {A : Type} (e l : List (String × A)) (k : String) :
    (updKeys l e).lookup k = (e.reverse.lookup k).or (l.lookup k) := by
  unfold updKeys
  induction e generalizing l with
  | nil => simp
  | cons p e ih =>
    obtain ⟨a, b⟩ := p
    rw [List.foldl_cons, ih, List.reverse_cons, lookup_append, lookup_setKey, lookup_cons']
    by_cases h : k = a
    · subst h; cases e.reverse.lookup k <;> simp
    · simp [h]

theorem modelsIdata_vars (models : List (String × IData V)) (acc : IData V) :
    (models.foldl (fun acc p => (⟨updKeys acc.coords p.2.coords, updKeys acc.vars p.2.vars⟩ : IData V)) acc).vars =
      updKeys acc.vars (models.flatMap fun p => p.2.vars) ∧
    (models.foldl (fun acc p => (⟨updKeys acc.coords p.2.coords, updKeys acc.vars p.2.vars⟩ : IData V)) acc).coords =
      updKeys acc.coords (models.flatMap fun p => p.2.coords) := by
  induction models generalizing acc with
  | nil => simp [updKeys]
  | cons p models ih =>
    rw [List.foldl_cons, (ih _).1, (ih _).2]
    simp [updKeys, List.foldl_append]

/-- The data of all models in one: of equal names the last stored one counts; flags are never handed out -/
theorem C87_all_models (s : Store V) (x : String) :
    (modelsIdata s).vars.lookup x = ((s.models.flatMap fun p => p.2.vars).reverse).lookup x ∧
    (modelsIdata s).coords.lookup x = ((s.models.flatMap fun p => p.2.coords).reverse).lookup x ∧
    ∀ flags, modelsIdata { s with flags := flags } = modelsIdata s := by
  obtain ⟨h1, h2⟩ := modelsIdata_vars s.models ⟨[], []⟩
  refine ⟨?_, ?_, fun _ => rfl⟩
  · unfold modelsIdata; rw [h1, updKeys_lookup]; simp
  · unfold modelsIdata; rw [h2, updKeys_lookup]; simp

/-! ### witnesses -/

/-- two states, two turbines, values that depend on the state only -/
def wOk : Var Nat := ⟨["state", "turbine"], ⟨[2, 2], fun idx => 10 + idx.getD 0 0⟩⟩

/-- the same, turbines first -/
def wFirst : Var Nat := ⟨["turbine", "state"], ⟨[2, 2], fun idx => 10 + idx.getD 1 0⟩⟩

/-- one value per turbine -/
def wOne : Var Nat := ⟨["turbine"], ⟨[2], fun _ => 7⟩⟩

/-- values that depend on the turbine -/
def wDep : Var Nat := ⟨["state", "turbine"], ⟨[2, 2], fun idx => idx.getD 1 0⟩⟩

/-- values without turbines -/
def wNo : Var Nat := ⟨["state"], ⟨[2], fun idx => idx.getD 0 0⟩⟩

def demo : Store Nat := ⟨2, [("A_a", ⟨[("turbine", [0, 1])], [("x", wOk), ("y", wNo)]⟩), ("B_b", ⟨[], [("z", wOk)]⟩)], []⟩

theorem demo_well : ∀ e ∈ entries demo.models, Well e.2.2 := by
  intro e he
  simp only [entries, demo, List.flatMap_cons, List.flatMap_nil, List.map_cons, List.map_nil, List.append_nil, List.cons_append,
    List.nil_append, List.mem_cons, List.not_mem_nil, or_false] at he
  rcases he with rfl | rfl | rfl <;> rfl

/-- the hypotheses of the theorems are met: three variables, two models, from two turbines to three, to one and back -/
example : (update demo 3).2 = none ∧ (updates demo [3, 1, 2]).2 = none ∧
    ((updates demo [3, 1, 5]).1.models.map fun p => p.2.vars.map fun q => q.2.arr.shape) = [[[2, 5], [2]], [[2, 5]]] ∧
    ((updates demo [3, 1, 5]).1.models.map fun p => p.2.coords) = [[("turbine", [0, 1, 2, 3, 4])], []] := by decide +kernel

theorem demo_keys : KeysDiffer demo.models := by
  unfold KeysDiffer entries demo; decide

/-- False of the code: data with turbines first are refused although they do not depend on turbines, and data with turbines only end with an error of numpy -/
theorem C87_turbine_first :
    Free 0 wFirst.arr ∧ Free 0 wOne.arr ∧
    (update (⟨2, [("A_a", ⟨[], [("x", wFirst)]⟩)], []⟩ : Store Nat) 3).2 = some .value ∧
    (update (⟨2, [("A_a", ⟨[], [("x", wOne)]⟩)], []⟩ : Store Nat) 3).2 = some .axis := by
  refine ⟨?_, ?_, by decide +kernel, by decide +kernel⟩
  · intro idx t _ _
    simp [wFirst]
  · intro idx t _ _; rfl

/-- False of the code: a refused change is half done. The number of turbines is the new one, variables before the offending one have the new size, the others the
old one; and the same call again is silent. -/
theorem C87_half_done :
    let s : Store Nat := ⟨2, [("A_a", ⟨[], [("x", wOk)]⟩), ("B_b", ⟨[], [("z", wDep)]⟩)], []⟩
    let t := (update s 3).1
    (update s 3).2 = some .value ∧ t.nTurbines = 3 ∧
    (t.models.map fun p => p.2.vars.map fun q => q.2.arr.shape) = [[[2, 3]], [[2, 2]]] ∧ update t 3 = (t, none) := by
  refine ⟨by decide +kernel, by decide +kernel, by decide +kernel, ?_⟩
  exact C87_same _

/-- In general: after any refusal the number is the new one, and the same call again does nothing and raises nothing -/
theorem C87_refused_then_silent [DecidableEq V] (s : Store V) (n : Nat) (e : Err) (h : (update s n).2 = some e) :
    (update s n).1.nTurbines = n ∧ update (update s n).1 n = ((update s n).1, none) := by
  have h1 : (update s n).1.nTurbines = n := by
    unfold update at h ⊢
    by_cases hc : s.nTurbines = n
    · simp [hc] at h
    · simp only [hc, if_false] at h ⊢
      cases hl : (loopModels n s.flags s.models []).2.2 with
      | none => simp [hl] at h
      | some e => rfl
  refine ⟨h1, ?_⟩
  have := C87_same (update s n).1
  rw [h1] at this
  exact this

/-- False of the code: the check is made once per model and variable. Data that replace the first ones are not checked: values that depend on the turbine are
cut, or those of the last turbine are repeated, without a word. -/
theorem C87_stale_flag :
    let s : Store Nat := ⟨2, [("A_a", ⟨[], [("x", wOk)]⟩)], []⟩
    let t := (update s 3).1
    ∃ t', store t "A" "a" ⟨[], [("x", ⟨["state", "turbine"], ⟨[2, 3], fun idx => idx.getD 1 0⟩⟩)]⟩ true = .ok t' ∧
      (update t' 4).2 = none ∧
      ((update t' 4).1.models.map fun p => p.2.vars.map fun q => q.2.arr.val [0, 3]) = [[2]] := by
  refine ⟨_, rfl, by decide +kernel, by decide +kernel⟩

/-- The same after removing the data: the flags stay, whatever is stored later -/
theorem C87_flags_survive (s : Store V) (cls name : String) (s' : Store V) (h : delete s cls name = .ok s') : s'.flags = s.flags := by
  unfold delete at h
  split at h
  · simp at h; rw [← h]
  · simp at h

/-- False of the code: keys of flags of different variables may be equal; then the last one counts for both, and data with turbines are no longer resized -/
theorem C87_key_collision :
    flagKey "A_a" "b_x" = flagKey "A_a_b" "x" ∧
    let s : Store Nat := ⟨2, [("A_a", ⟨[], [("b_x", wOk)]⟩), ("A_a_b", ⟨[], [("x", wNo)]⟩)], []⟩
    (updates s [3, 4]).2 = none ∧
    ((updates s [3, 4]).1.models.map fun p => p.2.vars.map fun q => q.2.arr.shape) = [[[2, 3]], [[2]]] := by
  refine ⟨by decide, by decide +kernel, by decide +kernel⟩

end Foxes.Props.StoredData
