import Verif.Model.GetData
import Mathlib.Tactic.Linarith
import Mathlib.Tactic.NormNum
import Mathlib.Tactic.Ring
import Mathlib.Algebra.BigOperators.Ring.List
import Mathlib.Algebra.Order.BigOperators.Group.List
import Mathlib.Tactic.Positivity
/-
C51: where models find their input. Specification: `seen r idx` is the value that a user of the returned array reads at a full index of the target (state,
target, target point) under numpy's broadcasting.
-/
namespace Foxes.Props.GetData
open Foxes.GetData
open Foxes.DataBox (Arr)

/-- value of an array at a full index, with axes of length one broadcast -/
def seen {V : Type} (a : Arr V) (idx : List ℕ) : V := a.val (List.zipWith (fun n i => if n = 1 then 0 else i) a.shape idx)

/-- an index inside a shape -/
def Inside (idx shp : List ℕ) : Prop := List.Forall₂ (· < ·) idx shp

variable {V : Type} (isNan : V → Bool)

/-- a result without selection and without upcast flag is the array found -/
lemma post_plain (c : Ctx V) (t : Target) (a : Arr V) : postprocess isNan c t {} a = .ok (some a) := by
  simp [postprocess, finish]

lemma uses_none (c : Ctx V) (t : Target) (hi : c.iter = none) : usesIteration c t = none := by
  unfold usesIteration
  rw [hi]
  cases c.fdata <;> simp

/-- C51: an unknown target is a KeyError, for all data. -/
theorem C51_unknown_target (c : Ctx V) (l : List Char) (o : Opts) : getData isNan c .other l o = .error .keyError := by
  simp [getData]

/-- C51: the target state-turbine cannot be combined with a wake causing turbine. -/
theorem C51_turbine_target_with_index (c : Ctx V) (j : ℕ) (h : c.dw = some j) (l : List Char) (o : Opts) :
    getData isNan c .stateTurbine l o = .error .valueError := by
  simp [getData, h]

lemma matchShape_scalar (shp : List ℕ) (h : shp ≠ []) (x : V) :
    matchShape shp ⟨[], fun _ => x⟩ = .ok ⟨List.replicate shp.length 1, fun _ => x⟩ := by
  have : 0 < shp.length := List.length_pos_iff.2 h
  simp [matchShape, this]

lemma tShape_ne (c : Ctx V) (t : Target) (h : t ≠ .other) : tShape c t ≠ [] := by
  cases t <;> simp_all [tShape]

/-- C51: a parameter that the user gave to the model as a number is used at all states and targets, whatever farm, model or target data of that name exist;
outside of time dependent wakes (no entry for the states of wake creation). -/
theorem C51_own_number (c : Ctx V) (t : Target) (x : V) (ls : List Char) (ht : t ≠ .other) (hi : c.iter = none) (hd : t = .stateTurbine → c.dw = none)
    (ho : c.own = some ⟨[], fun _ => x⟩) : ∃ r, getData isNan c t ('s' :: ls) {} = .ok (some r) ∧ ∀ idx, seen r idx = x := by
  refine ⟨⟨List.replicate (tShape c t).length 1, fun _ => x⟩, ?_, fun _ => rfl⟩
  have h1 : ¬ (t = .stateTurbine ∧ c.dw.isSome) := by rintro ⟨a, b⟩; simp [hd a] at b
  have h2 : search c t ('s' :: ls) = .ok (some ⟨List.replicate (tShape c t).length 1, fun _ => x⟩) := by
    simp [search, look, ho, matchShape_scalar _ (tShape_ne c t ht), Except.map]
  have h3 : usesIteration c t = none := by
    exact uses_none c t hi
  simp only [getData, ht, h1, if_false, h2, h3, post_plain]

/-- C51: one value per state (or one for all states) is used at all targets and target points; the first axis must have the number of states or one. -/
theorem C51_own_states (c : Ctx V) (t : Target) (n : ℕ) (f : List ℕ → V) (ls : List Char) (ht : t ≠ .other) (hi : c.iter = none)
    (hd : t = .stateTurbine → c.dw = none) (ho : c.own = some ⟨[n], f⟩) :
    ((n = 1 ∨ n = c.nStates) → ∃ r, getData isNan c t ('s' :: ls) {} = .ok (some r) ∧
      ∀ idx, Inside idx (tShape c t) → seen r idx = f [if n = 1 then 0 else idx.headD 0]) ∧
    (¬ (n = 1 ∨ n = c.nStates) → getData isNan c t ('s' :: ls) {} = .error .valueError) := by
  have h1 : ¬ (t = .stateTurbine ∧ c.dw.isSome) := by rintro ⟨a, b⟩; simp [hd a] at b
  have h3 : usesIteration c t = none := by
    exact uses_none c t hi
  constructor
  · intro hn
    cases t with
    | other => exact absurd rfl ht
    | stateTurbine =>
      refine ⟨⟨[n, 1], fun idx => f (idx.take 1)⟩, ?_, ?_⟩
      · have h2 : search c .stateTurbine ('s' :: ls) = .ok (some ⟨[n, 1], fun idx => f (idx.take 1)⟩) := by
          simp [search, look, ho, matchShape, tShape, Except.map, hn]
        rw [getData, if_neg ht, if_neg h1, h2, h3]; exact post_plain _ _ _ _
      · intro idx hidx
        rcases hidx with _ | ⟨_, hidx⟩
        simp [seen]
    | stateTarget =>
      refine ⟨⟨[n, 1], fun idx => f (idx.take 1)⟩, ?_, ?_⟩
      · have h2 : search c .stateTarget ('s' :: ls) = .ok (some ⟨[n, 1], fun idx => f (idx.take 1)⟩) := by
          simp [search, look, ho, matchShape, tShape, Except.map, hn]
        rw [getData, if_neg ht, if_neg h1, h2, h3]; exact post_plain _ _ _ _
      · intro idx hidx
        rcases hidx with _ | ⟨_, hidx⟩
        simp [seen]
    | stateTargetTpoint =>
      refine ⟨⟨[n, 1, 1], fun idx => f (idx.take 1)⟩, ?_, ?_⟩
      · have h2 : search c .stateTargetTpoint ('s' :: ls) = .ok (some ⟨[n, 1, 1], fun idx => f (idx.take 1)⟩) := by
          simp [search, look, ho, matchShape, tShape, Except.map, hn]
        rw [getData, if_neg ht, if_neg h1, h2, h3]; exact post_plain _ _ _ _
      · intro idx hidx
        rcases hidx with _ | ⟨_, hidx⟩
        simp [seen]
  · intro hn
    have h2 : search c t ('s' :: ls) = .error .valueError := by
      have : ∃ m ms, tShape c t = c.nStates :: m :: ms := by cases t <;> simp_all [tShape]
      obtain ⟨m, ms, hm⟩ := this
      push Not at hn
      simp [search, look, ho, matchShape, hm, Except.map, hn]
    simp only [getData, ht, h1, if_false, h2]

/-- C51: an array with more axes than the target has is rejected. -/
theorem C51_own_too_many_axes (c : Ctx V) (t : Target) (a : Arr V) (ls : List Char) (ht : t ≠ .other) (ho : c.own = some a)
    (h : (tShape c t).length < a.shape.length) : getData isNan c t ('s' :: ls) {} = .error .valueError := by
  have h2 : search c t ('s' :: ls) = .error .valueError := by
    simp [search, look, ho, matchShape, h, Nat.not_lt.2 h.le, Except.map]
  by_cases h1 : t = .stateTurbine ∧ c.dw.isSome
  · simp [getData, h1]
  · simp only [getData, ht, h1, if_false, h2]

/-- a full array is read as the array itself -/
lemma seen_full {a : Arr V} {idx shp : List ℕ} (ha : a.shape = shp) (h : Inside idx shp) : seen a idx = a.val idx := by
  unfold seen
  congr 1
  rw [ha]
  clear ha
  induction h with
  | nil => rfl
  | @cons x y xs ys hx _ ih =>
    have : (if y = 1 then 0 else x) = x := by split <;> omega
    simp only [List.zipWith_cons_cons, ih, this]

/-- the array fits to the target: as many axes, each of length one or of the target's length -/
def Fits (a : Arr V) (shp : List ℕ) : Prop := List.Forall₂ (fun n m => n = 1 ∨ n = m) a.shape shp

lemma search_farm (c : Ctx V) (t : Target) (f : Source V) (j m : ℕ) (l : Char) (ls : List Char) (ht : t = .stateTarget ∨ t = .stateTargetTpoint)
    (hl : l = 'f' ∨ l = 'w') (hf : c.fdata = some f) (hs : f.dims = ["state", "turbine"]) (hsh : f.arr.shape = [c.nStates, m])
    (hj : c.dw = some j) (htd : c.hasTdata = true) (ha : c.hasAlgo = true) :
    ∃ a, search c t (l :: ls) = .ok (some a) ∧ Fits a (tShape c t) ∧ ∀ idx, Inside idx (tShape c t) → seen a idx = f.arr.val [idx.headD 0, j] := by
  have key : ∀ idx, Inside idx (tShape c t) → (if c.nStates = 1 then 0 else idx.headD 0) = idx.headD 0 := by
    intro idx hidx
    split
    · rcases ht with rfl | rfl
      · rcases hidx with _ | ⟨ha, _⟩
        simp; omega
      · rcases hidx with _ | ⟨ha, _⟩
        simp; omega
    · rfl
  rcases ht with rfl | rfl <;> rcases hl with rfl | rfl
  · refine ⟨⟨[c.nStates, 1], fun idx => f.arr.val [(idx.take 1).headD 0, j]⟩, ?_, by simp [Fits, tShape], fun idx hidx => ?_⟩
    · simp [search, look, hf, isST, hs, hj, matchShape, column, hsh, tShape, Except.map]
    · have k := key idx hidx
      rcases hidx with _ | ⟨_, hidx⟩
      simpa [seen] using congrArg (fun x => f.arr.val [x, j]) k
  · refine ⟨⟨[c.nStates, 1], fun idx => f.arr.val [idx.headD 0, j]⟩, ?_, by simp [Fits, tShape], fun idx hidx => ?_⟩
    · simp [search, look, hf, isST, hs, hj, matchShape, wakeData, hsh, tShape, Except.map, htd, ha]
    · have k := key idx hidx
      rcases hidx with _ | ⟨_, hidx⟩
      simpa [seen] using congrArg (fun x => f.arr.val [x, j]) k
  · refine ⟨⟨[c.nStates, 1, 1], fun idx => f.arr.val [(idx.take 1).headD 0, j]⟩, ?_, by simp [Fits, tShape], fun idx hidx => ?_⟩
    · simp [search, look, hf, isST, hs, hj, matchShape, column, hsh, tShape, Except.map]
    · have k := key idx hidx
      rcases hidx with _ | ⟨_, hidx⟩
      simpa [seen] using congrArg (fun x => f.arr.val [x, j]) k
  · refine ⟨⟨[c.nStates, 1, 1], fun idx => f.arr.val [idx.headD 0, j]⟩, ?_, by simp [Fits, tShape], fun idx hidx => ?_⟩
    · simp [search, look, hf, isST, hs, hj, matchShape, wakeData, hsh, tShape, Except.map, htd, ha]
    · have k := key idx hidx
      rcases hidx with _ | ⟨_, hidx⟩
      simpa [seen] using congrArg (fun x => f.arr.val [x, j]) k

/-- C51: data of the wake causing turbine: with the letter `f` or `w`, every target and target point sees the value of turbine `j` at its own state, and no value of
another turbine. -/
theorem C51_farm_column (c : Ctx V) (t : Target) (f : Source V) (j m : ℕ) (l : Char) (ls : List Char) (ht : t = .stateTarget ∨ t = .stateTargetTpoint)
    (hl : l = 'f' ∨ l = 'w') (hi : c.iter = none) (hf : c.fdata = some f) (hs : f.dims = ["state", "turbine"]) (hsh : f.arr.shape = [c.nStates, m])
    (hj : c.dw = some j) (htd : c.hasTdata = true) (ha : c.hasAlgo = true) :
    ∃ r, getData isNan c t (l :: ls) {} = .ok (some r) ∧ ∀ idx, Inside idx (tShape c t) → seen r idx = f.arr.val [idx.headD 0, j] := by
  obtain ⟨a, h1, _, h2⟩ := search_farm c t f j m l ls ht hl hf hs hsh hj htd ha
  have e1 : t ≠ .other := by rcases ht with rfl | rfl <;> simp
  have e2 : ¬ (t = .stateTurbine ∧ c.dw.isSome) := by rcases ht with rfl | rfl <;> simp
  refine ⟨a, ?_, h2⟩
  rw [getData, if_neg e1, if_neg e2, h1, uses_none c t hi]
  exact post_plain _ _ _ _

/-- C51: turbine models (target state-turbine) get the farm data themselves. -/
theorem C51_farm_all (c : Ctx V) (f : Source V) (ls : List Char) (hf : c.fdata = some f) (hs : f.dims = ["state", "turbine"]) (hj : c.dw = none) :
    getData isNan c .stateTurbine ('f' :: ls) {} = .ok (some f.arr) := by
  have : search c .stateTurbine ('f' :: ls) = .ok (some f.arr) := by simp [search, look, hf, isST, hs]
  simp [getData, hj, this, usesIteration, post_plain]

/-- C51: sources without an entry are skipped: the answer is that of the remaining letters. -/
theorem C51_skip (c : Ctx V) (t : Target) (ls : List Char) (o : Opts) :
    (c.own = none → getData isNan c t ('s' :: ls) o = getData isNan c t ls o) ∧
    (c.mdata = none → getData isNan c t ('m' :: ls) o = getData isNan c t ls o) ∧
    (c.fdata = none → getData isNan c t ('f' :: ls) o = getData isNan c t ls o) ∧
    (c.fdata = none → getData isNan c t ('w' :: ls) o = getData isNan c t ls o) ∧
    (c.tdata = none ∨ t = .stateTurbine → getData isNan c t ('t' :: ls) o = getData isNan c t ls o) := by
  refine ⟨fun h => ?_, fun h => ?_, fun h => ?_, fun h => ?_, fun h => ?_⟩
  · simp [getData, search, look, h]
  · simp [getData, search, look, h]
  · simp [getData, search, look, h]
  · simp [getData, search, look, h]
  · have : look c t 't' = .ok none := by
      rcases h with h | h
      · simp [look, h]
      · simp only [look, h]; simp; split <;> rfl
    simp [getData, search, this]

/-- C51: what no source has is an error, or None on request. -/
theorem C51_not_found (c : Ctx V) (t : Target) (ls : List Char) (o : Opts) (ht : t ≠ .other) (hd : t = .stateTurbine → c.dw = none)
    (h1 : c.own = none) (h2 : c.mdata = none) (h3 : c.fdata = none) (h4 : c.tdata = none) :
    getData isNan c t ls o = if o.acceptNone then .ok none else .error .valueError := by
  have hs : search c t ls = .ok none := by
    induction ls with
    | nil => rfl
    | cons l ls ih =>
      have : look c t l = .ok none := by simp [look, h1, h2, h3, h4]
      simp [search, this, ih]
  have h5 : ¬ (t = .stateTurbine ∧ c.dw.isSome) := by rintro ⟨a, b⟩; simp [hd a] at b
  simp only [getData, ht, h5, if_false, hs]

/-- C51: the letter `p` of the default lookup order names no source: with the default `smfp`, target data are never found. -/
theorem C51_default_lookup_misses_targets (c : Ctx V) (t : Target) (o : Opts) (ht : t ≠ .other) (hd : t = .stateTurbine → c.dw = none)
    (h1 : c.own = none) (h2 : c.mdata = none) (h3 : c.fdata = none) :
    getData isNan c t "smfp".toList o = if o.acceptNone then .ok none else .error .valueError := by
  have hs : search c t "smfp".toList = .ok none := by simp [search, look, h1, h2, h3]
  have h5 : ¬ (t = .stateTurbine ∧ c.dw.isSome) := by rintro ⟨a, b⟩; simp [hd a] at b
  simp only [getData, ht, h5, if_false, hs]

/-- C51 finding: model data (or target data) with an axis of turbines pass the test of dimensions as if the wake causing turbine had been selected, but are returned
whole: with as many targets as turbines, target `k` sees the value of turbine `k` instead of turbine `j`. -/
theorem C51_unsliced (c : Ctx V) (s : Source V) (j : ℕ) (ls : List Char) (hi : c.iter = none) (hm : c.mdata = some s)
    (hs : s.dims = ["state", "turbine"]) (hsh : s.arr.shape = [c.nStates, c.nTurbines]) (hn : c.nTargets = c.nTurbines) (hj : c.dw = some j) :
    ∃ r, getData isNan c .stateTarget ('m' :: ls) {} = .ok (some r) ∧ ∀ i k, i < c.nStates → k < c.nTargets → seen r [i, k] = s.arr.val [i, k] := by
  refine ⟨s.arr, ?_, ?_⟩
  · have h3 : usesIteration c .stateTarget = none := by
      exact uses_none c _ hi
    have : search c .stateTarget ('m' :: ls) = .ok (some s.arr) := by
      simp [search, look, hm, fromSource, filterDims, hj, hs, tDims, matchShape, hsh, tShape, Except.map]
    simp [getData, this, h3, post_plain]
  · intro i k hik hkk
    rw [hn] at hkk
    have e1 : (if c.nStates = 1 then 0 else i) = i := by split <;> omega
    have e2 : (if c.nTurbines = 1 then 0 else k) = k := by split <;> omega
    simp [seen, hsh, e1, e2]

lemma mem_indices (shp idx : List ℕ) : idx ∈ indices shp ↔ Inside idx shp := by
  induction shp generalizing idx with
  | nil => simp [indices, Inside]
  | cons n ns ih =>
    simp only [indices, List.mem_flatMap, List.mem_range, List.mem_map]
    constructor
    · rintro ⟨i, hi, l, hl, rfl⟩
      exact List.Forall₂.cons hi ((ih l).1 hl)
    · rintro (_ | ⟨h, hs⟩)
      exact ⟨_, h, _, (ih _).2 hs, rfl⟩

lemma upcast_ok (a : Arr V) (shp : List ℕ) (h : Fits a shp) : ∃ r, upcast shp a = .ok r ∧ r.shape = shp ∧ ∀ idx, r.val idx = seen a idx := by
  refine ⟨⟨shp, fun idx => a.val (bIdx a.shape idx)⟩, ?_, rfl, fun _ => rfl⟩
  have h2 : (a.shape.zip shp).all (fun p => p.1 = 1 || p.1 = p.2) = true := by
    unfold Fits at h
    generalize a.shape = sh at h
    induction h with
    | nil => rfl
    | cons hx _ ih => simp only [List.zip_cons_cons, List.all_cons, ih, Bool.and_true]; simpa using hx
  simp [upcast, h.length_eq, h2]

/-- C51: with the flag `upcast` the result has exactly the target's shape, and holds the values that were found (here: any data found that fit). -/
theorem C51_upcast (c : Ctx V) (t : Target) (ls : List Char) (a : Arr V) (h : getData isNan c t ls {} = .ok (some a)) (hf : Fits a (tShape c t)) :
    ∃ r, getData isNan c t ls { up := true } = .ok (some r) ∧ r.shape = tShape c t ∧ ∀ idx, Inside idx (tShape c t) → r.val idx = seen a idx := by
  have key : ∀ b, postprocess isNan c t {} b = .ok (some a) →
      ∃ r, postprocess isNan c t { up := true } b = .ok (some r) ∧ r.shape = tShape c t ∧ ∀ idx, Inside idx (tShape c t) → r.val idx = seen a idx := by
    intro b hb
    rw [post_plain] at hb
    simp only [Except.ok.injEq, Option.some.injEq] at hb
    subst hb
    by_cases hs : b.shape = tShape c t
    · exact ⟨b, by simp [postprocess, finish, hs], hs, fun idx hidx => (seen_full hs hidx).symm⟩
    · obtain ⟨r, h1, h2, h3⟩ := upcast_ok b _ hf
      exact ⟨r, by simp [postprocess, finish, hs, h1, Except.map], h2, fun idx _ => h3 idx⟩
  unfold getData at h ⊢
  split at h
  · simp at h
  · split at h
    · simp at h
    · rename_i g1 g2
      rw [if_neg g1, if_neg g2]
      cases hs : search c t ls with
      | error e => simp [hs] at h
      | ok x =>
        cases x with
        | none => simp [hs] at h
        | some b =>
          simp only [hs] at h ⊢
          cases hu : usesIteration c t with
          | none => simp only [hu] at h ⊢; exact key b h
          | some p =>
            obtain ⟨f, it⟩ := p
            simp only [hu] at h ⊢
            cases hfi : fromIteration c it t f b with
            | error e => simp [hfi] at h
            | ok b' => simp only [hfi] at h ⊢; exact key b' h

/-- the branch for data from other chunks, when it succeeds -/
lemma fromIteration_ok (c : Ctx V) (it : Iter V) (t : Target) (f : Source V) (a : Arr V) (j : ℕ) (hfit : Fits a (tShape c t)) (hj : c.dw = some j)
    (ho : it.orderi = j) (ha : c.hasAlgo = true) (hit : it.iterative = true)
    (hpast : ∀ idx, Inside idx (tShape c t) → creation c it t idx < it.i0 + c.nStates) :
    ∃ r, fromIteration c it t f a = .ok r ∧ r.shape = tShape c t ∧ ∀ idx, Inside idx (tShape c t) →
      r.val idx = if creation c it t idx < it.i0 then (match it.prev with | none => seen a idx | some P => P (creation c it t idx) j)
        else f.arr.val [creation c it t idx - it.i0, j] := by
  have hcells : ((indices (tShape c t)).map (creation c it t)).any (fun s => it.i0 ≤ s && c.nStates ≤ s - it.i0) = false := by
    rw [List.any_eq_false]
    intro x hx
    rw [List.mem_map] at hx
    obtain ⟨idx, hidx, rfl⟩ := hx
    rw [mem_indices] at hidx
    have := hpast _ hidx
    simp
    omega
  have main : ∀ b : Arr V, (∀ idx, Inside idx (tShape c t) → b.val idx = seen a idx) →
      (if a.shape = tShape c t then .ok a else upcast (tShape c t) a) = (Except.ok b : Except Err (Arr V)) →
      ∃ r, fromIteration c it t f a = .ok r ∧ r.shape = tShape c t ∧ ∀ idx, Inside idx (tShape c t) →
      r.val idx = if creation c it t idx < it.i0 then (match it.prev with | none => seen a idx | some P => P (creation c it t idx) j)
        else f.arr.val [creation c it t idx - it.i0, j] := by
    intro b hb hbe
    refine ⟨⟨tShape c t, fun idx =>
          if creation c it t idx < it.i0 then
            match it.prev with
            | none => b.val idx
            | some P => P (creation c it t idx) j
          else f.arr.val [creation c it t idx - it.i0, j]⟩, ?_, rfl, ?_⟩
    · unfold fromIteration
      simp only [hbe, hj, ho, ha, hit, hcells]
      simp
      funext idx
      cases it.prev <;> rfl
    · intro idx hidx
      simp only
      rw [hb idx hidx]
  by_cases hs : a.shape = tShape c t
  · exact main a (fun idx hidx => (seen_full hs hidx).symm) (by simp [hs])
  · obtain ⟨r, h1, h2, h3⟩ := upcast_ok a _ hfit
    exact main r (fun idx _ => h3 idx) (by simp [hs, h1])

lemma get_iteration (c : Ctx V) (t : Target) (f : Source V) (it : Iter V) (l : List Char) (a b : Arr V) (ht : t = .stateTarget ∨ t = .stateTargetTpoint)
    (hi : c.iter = some it) (hf : c.fdata = some f) (htd : c.hasTdata = true) (h1 : search c t l = .ok (some a)) (h2 : fromIteration c it t f a = .ok b) :
    getData isNan c t l {} = .ok (some b) := by
  have e1 : t ≠ .other := by rcases ht with rfl | rfl <;> simp
  have e2 : ¬ (t = .stateTurbine ∧ c.dw.isSome) := by rcases ht with rfl | rfl <;> simp
  have hu : usesIteration c t = some (f, it) := by simp [usesIteration, hf, hi, htd, ht]
  rw [getData, if_neg e1, if_neg e2, h1, hu]
  simp only [h2]
  exact post_plain _ _ _ _

/-- all that is needed to read farm data of wakes that were created in other states: consistent calls, an iterative algorithm -/
structure Dynamic (c : Ctx V) (f : Source V) (it : Iter V) (j m : ℕ) : Prop where
  iter : c.iter = some it
  farm : c.fdata = some f
  dims : f.dims = ["state", "turbine"]
  shape : f.arr.shape = [c.nStates, m]
  index : c.dw = some j
  targets : c.hasTdata = true
  algo : c.hasAlgo = true
  order : it.orderi = j
  iterative : it.iterative = true

/-- C51 (time dependent wakes): if the previous iteration's results are `G` and the chunk's own farm data are the chunk's rows of `G` (the iterations have converged), then
every target point gets the value of `G` in the state in which its wake was created. The position of the chunk does not enter, so all divisions of the states into
chunks give the same data. -/
theorem C51_iteration_points (c : Ctx V) (f : Source V) (it : Iter V) (G : ℕ → ℕ → V) (j m : ℕ) (l : Char) (ls : List Char)
    (hl : l = 'f' ∨ l = 'w') (hd : Dynamic c f it j m)
    (hp : it.prev = some G) (hrows : ∀ i < c.nStates, f.arr.val [i, j] = G (it.i0 + i) j)
    (hpast : ∀ i < c.nStates, ∀ k < c.nTargets, ∀ p < c.nTpoints, it.statesSel i k p < it.i0 + c.nStates) :
    ∃ r, getData isNan c .stateTargetTpoint (l :: ls) {} = .ok (some r) ∧ r.shape = [c.nStates, c.nTargets, c.nTpoints] ∧
      ∀ i < c.nStates, ∀ k < c.nTargets, ∀ p < c.nTpoints, r.val [i, k, p] = G (it.statesSel i k p) j := by
  obtain ⟨a, h1, hfit, _⟩ := search_farm c .stateTargetTpoint f j m l ls (Or.inr rfl) hl hd.farm hd.dims hd.shape hd.index hd.targets hd.algo
  have hpast' : ∀ idx, Inside idx (tShape c .stateTargetTpoint) → creation c it .stateTargetTpoint idx < it.i0 + c.nStates := by
    intro idx hidx
    rcases hidx with _ | ⟨h1, _ | ⟨h2, _ | ⟨h3, _ | _⟩⟩⟩
    simpa [creation] using hpast _ h1 _ h2 _ h3
  obtain ⟨r, h2, h3, h4⟩ := fromIteration_ok c it .stateTargetTpoint f a j hfit hd.index hd.order hd.algo hd.iterative hpast'
  refine ⟨r, get_iteration isNan c _ f it _ a r (Or.inr rfl) hd.iter hd.farm hd.targets h1 h2, h3, fun i hi k hk p hp' => ?_⟩
  rw [h4 [i, k, p] (by simpa [Inside, tShape] using ⟨hi, hk, hp'⟩)]
  have hc : creation c it .stateTargetTpoint [i, k, p] = it.statesSel i k p := by simp [creation]
  rw [hc, hp]
  split
  · rfl
  · rename_i hge
    have := hpast i hi k hk p hp'
    rw [hrows _ (by omega)]
    congr 1
    omega

/-- C51 (time dependent wakes), per target: with one point per target, or if all points of the target see the wake of the same state `s` and the weights of the points
sum up to one, the target gets the value in that state. -/
theorem C51_iteration_targets (c : Ctx V) (f : Source V) (it : Iter V) (G : ℕ → ℕ → V) (j m : ℕ) (l : Char) (ls : List Char) (s : ℕ → ℕ → ℕ)
    (hl : l = 'f' ∨ l = 'w') (hd : Dynamic c f it j m)
    (hp : it.prev = some G) (hrows : ∀ i < c.nStates, f.arr.val [i, j] = G (it.i0 + i) j)
    (hn : 0 < c.nTpoints) (hw : ((List.range c.nTpoints).map it.weights).sum = 1)
    (hsame : ∀ i < c.nStates, ∀ k < c.nTargets, ∀ p < c.nTpoints, it.statesSel i k p = s i k)
    (hpast : ∀ i < c.nStates, ∀ k < c.nTargets, s i k < it.i0 + c.nStates) :
    ∃ r, getData isNan c .stateTarget (l :: ls) {} = .ok (some r) ∧ r.shape = [c.nStates, c.nTargets] ∧
      ∀ i < c.nStates, ∀ k < c.nTargets, r.val [i, k] = G (s i k) j := by
  obtain ⟨a, h1, hfit, _⟩ := search_farm c .stateTarget f j m l ls (Or.inl rfl) hl hd.farm hd.dims hd.shape hd.index hd.targets hd.algo
  have hc : ∀ i < c.nStates, ∀ k < c.nTargets, creation c it .stateTarget [i, k] = s i k := by
    intro i hi k hk
    unfold creation
    simp only [List.headD_cons, List.drop_succ_cons, List.drop_zero, if_true]
    split
    · exact hsame i hi k hk 0 hn
    · have : ((List.range c.nTpoints).map (fun p => (it.statesSel i k p : ℚ) * it.weights p)).sum = s i k := by
        have e : (List.range c.nTpoints).map (fun p => (it.statesSel i k p : ℚ) * it.weights p) = (List.range c.nTpoints).map (fun p => (s i k : ℚ) * it.weights p) := by
          apply List.map_congr_left
          intro p hp
          rw [hsame i hi k hk p (List.mem_range.1 hp)]
        rw [e, List.sum_map_mul_left, hw, mul_one]
      rw [this]
      have : ⌊(s i k : ℚ) + 1 / 2⌋ = (s i k : ℤ) := by
        rw [Int.floor_eq_iff]
        constructor <;> push_cast <;> linarith
      rw [this]
      rfl
  have hpast' : ∀ idx, Inside idx (tShape c .stateTarget) → creation c it .stateTarget idx < it.i0 + c.nStates := by
    intro idx hidx
    rcases hidx with _ | ⟨h1, _ | ⟨h2, _ | _⟩⟩
    rw [hc _ h1 _ h2]
    exact hpast _ h1 _ h2
  obtain ⟨r, h2, h3, h4⟩ := fromIteration_ok c it .stateTarget f a j hfit hd.index hd.order hd.algo hd.iterative hpast'
  refine ⟨r, get_iteration isNan c _ f it _ a r (Or.inl rfl) hd.iter hd.farm hd.targets h1 h2, h3, fun i hi k hk => ?_⟩
  rw [h4 [i, k] (by simpa [Inside, tShape] using ⟨hi, hk⟩)]
  rw [hc i hi k hk, hp]
  split
  · rfl
  · rename_i hge
    have := hpast i hi k hk
    rw [hrows _ (by omega)]
    congr 1
    omega

/-- C51 (time dependent wakes), targets with several points that see wakes of different states: the value is that of one state, nearest to the weighted mean of the points'
states (halves are rounded up); with one point, it is that point's state, whatever its weight. -/
theorem C51_iteration_target_mean (c : Ctx V) (f : Source V) (it : Iter V) (G : ℕ → ℕ → V) (j m : ℕ) (l : Char) (ls : List Char)
    (hl : l = 'f' ∨ l = 'w') (hd : Dynamic c f it j m)
    (hp : it.prev = some G) (hrows : ∀ i < c.nStates, f.arr.val [i, j] = G (it.i0 + i) j)
    (hw : ∀ p < c.nTpoints, 0 ≤ it.weights p)
    (hpast : ∀ i < c.nStates, ∀ k < c.nTargets,
      (c.nTpoints = 1 → it.statesSel i k 0 < it.i0 + c.nStates) ∧
      (c.nTpoints ≠ 1 → ((List.range c.nTpoints).map (fun p => (it.statesSel i k p : ℚ) * it.weights p)).sum + 1 / 2 < it.i0 + c.nStates)) :
    ∃ r, getData isNan c .stateTarget (l :: ls) {} = .ok (some r) ∧ r.shape = [c.nStates, c.nTargets] ∧
      ∀ i < c.nStates, ∀ k < c.nTargets, ∃ s : ℕ, r.val [i, k] = G s j ∧ (c.nTpoints = 1 → s = it.statesSel i k 0) ∧
        (c.nTpoints ≠ 1 → (s : ℚ) - 1 / 2 ≤ ((List.range c.nTpoints).map (fun p => (it.statesSel i k p : ℚ) * it.weights p)).sum ∧
          ((List.range c.nTpoints).map (fun p => (it.statesSel i k p : ℚ) * it.weights p)).sum < s + 1 / 2) := by
  obtain ⟨a, h1, hfit, _⟩ := search_farm c .stateTarget f j m l ls (Or.inl rfl) hl hd.farm hd.dims hd.shape hd.index hd.targets hd.algo
  have hnn : ∀ i k, 0 ≤ ((List.range c.nTpoints).map (fun p => (it.statesSel i k p : ℚ) * it.weights p)).sum := by
    intro i k
    apply List.sum_nonneg
    intro x hx
    rw [List.mem_map] at hx
    obtain ⟨p, hp, rfl⟩ := hx
    exact mul_nonneg (Nat.cast_nonneg _) (hw p (List.mem_range.1 hp))
  have hc : ∀ i < c.nStates, ∀ k < c.nTargets, creation c it .stateTarget [i, k] < it.i0 + c.nStates ∧
      (c.nTpoints = 1 → creation c it .stateTarget [i, k] = it.statesSel i k 0) ∧
        (c.nTpoints ≠ 1 → (creation c it .stateTarget [i, k] : ℚ) - 1 / 2 ≤ ((List.range c.nTpoints).map (fun p => (it.statesSel i k p : ℚ) * it.weights p)).sum ∧
          ((List.range c.nTpoints).map (fun p => (it.statesSel i k p : ℚ) * it.weights p)).sum < creation c it .stateTarget [i, k] + 1 / 2) := by
    intro i hi k hk
    obtain ⟨q1, q2⟩ := hpast i hi k hk
    by_cases h1 : c.nTpoints = 1
    · have e : creation c it .stateTarget [i, k] = it.statesSel i k 0 := by simp [creation, h1]
      exact ⟨by rw [e]; exact q1 h1, fun _ => e, fun h => absurd h1 h⟩
    · have e : creation c it .stateTarget [i, k] = ⌊((List.range c.nTpoints).map (fun p => (it.statesSel i k p : ℚ) * it.weights p)).sum + 1 / 2⌋.toNat := by
        unfold creation; rw [if_pos rfl, if_neg h1]; rfl
      have q := q2 h1
      have n0 := hnn i k
      generalize ((List.range c.nTpoints).map (fun p => (it.statesSel i k p : ℚ) * it.weights p)).sum = S at e q n0 ⊢
      have hfl : (0 : ℤ) ≤ ⌊S + 1 / 2⌋ := Int.floor_nonneg.2 (by linarith)
      have e2 : ((creation c it .stateTarget [i, k] : ℕ) : ℚ) = ((⌊S + 1 / 2⌋ : ℤ) : ℚ) := by
        rw [e]
        have : ((⌊S + 1 / 2⌋.toNat : ℤ)) = ⌊S + 1 / 2⌋ := Int.toNat_of_nonneg hfl
        exact_mod_cast this
      have l1 := Int.floor_le (S + 1 / 2)
      have l2 := Int.lt_floor_add_one (S + 1 / 2)
      refine ⟨?_, fun h => absurd h h1, fun _ => ⟨by rw [e2]; linarith, by rw [e2]; linarith⟩⟩
      have : ((creation c it .stateTarget [i, k] : ℕ) : ℚ) < ((it.i0 + c.nStates : ℕ) : ℚ) := by rw [e2]; push_cast; linarith
      exact_mod_cast this
  have hpast' : ∀ idx, Inside idx (tShape c .stateTarget) → creation c it .stateTarget idx < it.i0 + c.nStates := by
    intro idx hidx
    rcases hidx with _ | ⟨h1, _ | ⟨h2, _ | _⟩⟩
    exact (hc _ h1 _ h2).1
  obtain ⟨r, h2, h3, h4⟩ := fromIteration_ok c it .stateTarget f a j hfit hd.index hd.order hd.algo hd.iterative hpast'
  refine ⟨r, get_iteration isNan c _ f it _ a r (Or.inl rfl) hd.iter hd.farm hd.targets h1 h2, h3, fun i hi k hk => ⟨creation c it .stateTarget [i, k], ?_, (hc i hi k hk).2⟩⟩
  rw [h4 [i, k] (by simpa [Inside, tShape] using ⟨hi, hk⟩), hp]
  split
  · rfl
  · rename_i hge
    have := (hc i hi k hk).1
    rw [hrows _ (by omega)]
    congr 1
    omega

/-- C51: model data and target data whose dimensions are the first ones of the target's (state; state and target; all three) are used, constant over the remaining axes. -/
theorem C51_source_data (c : Ctx V) (t : Target) (s : Source V) (n : ℕ) (l : Char) (ls : List Char) (ht : t = .stateTarget ∨ t = .stateTargetTpoint) (hi : c.iter = none)
    (hl : (l = 'm' ∧ c.mdata = some s) ∨ (l = 't' ∧ c.tdata = some s)) (hn : n ≤ (tDims t).length) (hs : s.dims = (tDims t).take n)
    (hsh : s.arr.shape = (tShape c t).take n) :
    ∃ r, getData isNan c t (l :: ls) {} = .ok (some r) ∧ ∀ idx, Inside idx (tShape c t) → seen r idx = s.arr.val (idx.take n) := by
  have e1 : t ≠ .other := by rcases ht with rfl | rfl <;> simp
  have e2 : ¬ (t = .stateTurbine ∧ c.dw.isSome) := by rcases ht with rfl | rfl <;> simp
  have hfd : filterDims c.dw s = s.dims := by
    unfold filterDims
    cases c.dw with
    | none => rfl
    | some _ =>
      simp only [ne_eq]
      apply List.filter_eq_self.2
      intro x hx
      rw [hs] at hx
      have := List.mem_of_mem_take hx
      rcases ht with rfl | rfl
      · simp [tDims] at this
        rcases this with rfl | rfl <;> decide
      · simp [tDims] at this
        rcases this with rfl | rfl | rfl <;> decide
  have hlen : (tDims t).length = (tShape c t).length := by cases t <;> rfl
  have hm : ∃ a, matchShape (tShape c t) s.arr = .ok a ∧ ∀ idx, Inside idx (tShape c t) → seen a idx = s.arr.val (idx.take n) := by
    have hle : n ≤ (tShape c t).length := hlen ▸ hn
    have key : ∀ idx, Inside idx (tShape c t) → ∀ k, (List.zipWith (fun n i => if n = 1 then 0 else i) ((tShape c t).take n ++ List.replicate k 1) idx).take n = idx.take n := by
      intro idx hidx
      clear hs hsh hn hfd hlen
      revert n idx
      generalize tShape c t = shp
      induction shp with
      | nil => intro n hle idx hidx k; rcases hidx with _ | _; simp at hle; simp [hle]
      | cons x xs ih =>
        intro n hle idx hidx k
        rcases hidx with _ | ⟨hx, hxs⟩
        rename_i y ys
        cases n with
        | zero => simp
        | succ n =>
          have := ih n (by simpa using hle) ys hxs k
          have e : (if x = 1 then 0 else y) = y := by split <;> omega
          simp [this, e]
    by_cases hlt : n < (tShape c t).length
    · refine ⟨⟨s.arr.shape ++ List.replicate ((tShape c t).length - s.arr.shape.length) 1, fun idx => s.arr.val (idx.take s.arr.shape.length)⟩, ?_, ?_⟩
      · have h1 : s.arr.shape.length < (tShape c t).length := by rw [hsh]; simp; omega
        have h2 : (s.arr.shape.zip (tShape c t)).all (fun p => p.1 = 1 || p.1 = p.2) = true := by
          rw [hsh, List.all_eq_true]
          intro p hp
          obtain ⟨q, hq⟩ := List.mem_iff_getElem?.1 hp
          rw [List.getElem?_zip_eq_some, List.getElem?_take] at hq
          obtain ⟨g1, g2⟩ := hq
          split at g1
          · rw [g1] at g2
            simp at g2
            simp [g2]
          · simp at g1
        simp only [matchShape, if_pos h1, h2, if_true]
      · intro idx hidx
        have hl' : ((tShape c t).take n).length = n := by simp; omega
        simp only [seen, hsh, hl']
        rw [key idx hidx]
    · have hn' : n = (tShape c t).length := by omega
      have hsh' : s.arr.shape = tShape c t := by rw [hsh, hn', List.take_length]
      refine ⟨s.arr, by simp [matchShape, hsh'], fun idx hidx => ?_⟩
      rw [seen_full hsh' hidx, List.take_of_length_le]
      rw [hn', hidx.length_eq]
  obtain ⟨a, ha, hseen⟩ := hm
  have hfs : fromSource c t s = .ok (some a) := by
    have h1 : s.dims.length = n := by rw [hs]; simp; omega
    have h3 : s.dims.length ≤ (tDims t).length ∧ s.dims = (tDims t).take s.dims.length := ⟨by rw [h1]; exact hn, by rw [h1]; exact hs⟩
    simp only [fromSource, hfd, if_pos h3, ha]
    rfl
  refine ⟨a, ?_, hseen⟩
  have hsr : search c t (l :: ls) = .ok (some a) := by
    rcases hl with ⟨rfl, h⟩ | ⟨rfl, h⟩
    · simp [search, look, h, hfs]
    · have : t ≠ .stateTurbine := by rcases ht with rfl | rfl <;> simp
      simp [search, look, h, hfs, this]
  rw [getData, if_neg e1, if_neg e2, hsr, uses_none c t hi]
  exact post_plain _ _ _ _

/-- C51: the first iteration, when no results of other chunks exist yet: wakes that were created before the chunk use the farm data of the present state, wakes that were
created inside of the chunk those of the state of creation. -/
theorem C51_iteration_first (c : Ctx V) (f : Source V) (it : Iter V) (j m : ℕ) (l : Char) (ls : List Char)
    (hl : l = 'f' ∨ l = 'w') (hd : Dynamic c f it j m) (hp : it.prev = none)
    (hpast : ∀ i < c.nStates, ∀ k < c.nTargets, ∀ p < c.nTpoints, it.statesSel i k p < it.i0 + c.nStates) :
    ∃ r, getData isNan c .stateTargetTpoint (l :: ls) {} = .ok (some r) ∧
      ∀ i < c.nStates, ∀ k < c.nTargets, ∀ p < c.nTpoints,
        r.val [i, k, p] = f.arr.val [if it.statesSel i k p < it.i0 then i else it.statesSel i k p - it.i0, j] := by
  obtain ⟨a, h1, hfit, hseen⟩ := search_farm c .stateTargetTpoint f j m l ls (Or.inr rfl) hl hd.farm hd.dims hd.shape hd.index hd.targets hd.algo
  have hpast' : ∀ idx, Inside idx (tShape c .stateTargetTpoint) → creation c it .stateTargetTpoint idx < it.i0 + c.nStates := by
    intro idx hidx
    rcases hidx with _ | ⟨h1, _ | ⟨h2, _ | ⟨h3, _ | _⟩⟩⟩
    simpa [creation] using hpast _ h1 _ h2 _ h3
  obtain ⟨r, h2, h3, h4⟩ := fromIteration_ok c it .stateTargetTpoint f a j hfit hd.index hd.order hd.algo hd.iterative hpast'
  refine ⟨r, get_iteration isNan c _ f it _ a r (Or.inr rfl) hd.iter hd.farm hd.targets h1 h2, fun i hi k hk p hp' => ?_⟩
  have hin : Inside [i, k, p] (tShape c .stateTargetTpoint) := by simpa [Inside, tShape] using ⟨hi, hk, hp'⟩
  rw [h4 [i, k, p] hin]
  have hc : creation c it .stateTargetTpoint [i, k, p] = it.statesSel i k p := by simp [creation]
  rw [hc, hp]
  split
  · rw [hseen _ hin]; rfl
  · rfl

/-- C51 finding: with time dependent wakes, a number that the user gave to the model is overwritten as soon as the farm data hold a variable of the same name: the result is
that of the farm data, and the number has no influence. -/
theorem C51_own_overwritten (c : Ctx V) (f : Source V) (it : Iter V) (j m : ℕ) (x : V) (G : ℕ → ℕ → V) (ls : List Char)
    (hd : Dynamic c f it j m) (ho : c.own = some ⟨[], fun _ => x⟩)
    (hp : it.prev = some G) (hrows : ∀ i < c.nStates, f.arr.val [i, j] = G (it.i0 + i) j)
    (hpast : ∀ i < c.nStates, ∀ k < c.nTargets, ∀ p < c.nTpoints, it.statesSel i k p < it.i0 + c.nStates) :
    ∃ r, getData isNan c .stateTargetTpoint ('s' :: ls) {} = .ok (some r) ∧
      ∀ i < c.nStates, ∀ k < c.nTargets, ∀ p < c.nTpoints, r.val [i, k, p] = G (it.statesSel i k p) j := by
  have h1 : search c .stateTargetTpoint ('s' :: ls) = .ok (some ⟨[1, 1, 1], fun _ => x⟩) := by
    simp [search, look, ho, matchShape, tShape, Except.map]
  have hpast' : ∀ idx, Inside idx (tShape c .stateTargetTpoint) → creation c it .stateTargetTpoint idx < it.i0 + c.nStates := by
    intro idx hidx
    rcases hidx with _ | ⟨h1, _ | ⟨h2, _ | ⟨h3, _ | _⟩⟩⟩
    simpa [creation] using hpast _ h1 _ h2 _ h3
  obtain ⟨r, h2, h3, h4⟩ := fromIteration_ok c it .stateTargetTpoint f ⟨[1, 1, 1], fun _ => x⟩ j (by simp [Fits, tShape]) hd.index hd.order hd.algo hd.iterative hpast'
  refine ⟨r, get_iteration isNan c _ f it _ _ r (Or.inr rfl) hd.iter hd.farm hd.targets h1 h2, fun i hi k hk p hp' => ?_⟩
  rw [h4 [i, k, p] (by simpa [Inside, tShape] using ⟨hi, hk, hp'⟩)]
  have hc : creation c it .stateTargetTpoint [i, k, p] = it.statesSel i k p := by simp [creation]
  rw [hc, hp]
  split
  · rfl
  · rename_i hge
    have := hpast i hi k hk p hp'
    rw [hrows _ (by omega)]
    congr 1
    omega

/-- C51: the number is kept as long as the farm data have no variable of that name, also with time dependent wakes. -/
theorem C51_own_kept_partial (c : Ctx V) (t : Target) (x : V) (ls : List Char) (ht : t ≠ .other) (hf : c.fdata = none) (hd : t = .stateTurbine → c.dw = none)
    (ho : c.own = some ⟨[], fun _ => x⟩) : ∃ r, getData isNan c t ('s' :: ls) {} = .ok (some r) ∧ ∀ idx, seen r idx = x := by
  refine ⟨⟨List.replicate (tShape c t).length 1, fun _ => x⟩, ?_, fun _ => rfl⟩
  have h1 : ¬ (t = .stateTurbine ∧ c.dw.isSome) := by rintro ⟨a, b⟩; simp [hd a] at b
  have h2 : search c t ('s' :: ls) = .ok (some ⟨List.replicate (tShape c t).length 1, fun _ => x⟩) := by
    simp [search, look, ho, matchShape_scalar _ (tShape_ne c t ht), Except.map]
  have h3 : usesIteration c t = none := by simp [usesIteration, hf]
  simp only [getData, ht, h1, if_false, h2, h3, post_plain]

/-- C51: wrong calls for time dependent wakes are errors: without the wake causing turbine a KeyError, with another one than the wake frame prepared a ValueError. -/
theorem C51_iteration_errors (c : Ctx V) (f : Source V) (it : Iter V) (x : V) (ls : List Char) (o : Opts) (hi : c.iter = some it) (hf : c.fdata = some f)
    (htd : c.hasTdata = true) (ho : c.own = some ⟨[], fun _ => x⟩) :
    (c.dw = none → getData isNan c .stateTarget ('s' :: ls) o = .error .keyError) ∧
    (∀ j, c.dw = some j → it.orderi ≠ j → getData isNan c .stateTarget ('s' :: ls) o = .error .valueError) := by
  have h1 : search c .stateTarget ('s' :: ls) = .ok (some ⟨[1, 1], fun _ => x⟩) := by
    simp [search, look, ho, matchShape, tShape, Except.map]
  have hu : usesIteration c .stateTarget = some (f, it) := by simp [usesIteration, hf, hi, htd]
  have hup : ∃ b, (if (⟨[1, 1], fun _ => x⟩ : Arr V).shape = tShape c .stateTarget then Except.ok ⟨[1, 1], fun _ => x⟩ else upcast (tShape c .stateTarget) ⟨[1, 1], fun _ => x⟩) = (Except.ok b : Except Err (Arr V)) := by
    split
    · exact ⟨_, rfl⟩
    · obtain ⟨r, h, _⟩ := upcast_ok (⟨[1, 1], fun _ => x⟩ : Arr V) (tShape c .stateTarget) (by simp [Fits, tShape])
      exact ⟨r, h⟩
  obtain ⟨b, hb⟩ := hup
  constructor
  · intro hd
    simp only [getData, h1, hu, fromIteration, hb, hd]
    simp
  · intro j hd hne
    simp only [getData, h1, hu, fromIteration, hb, hd]
    simp [hne]

/-- what the search found, outside of time dependent wakes -/
lemma search_of_get (c : Ctx V) (t : Target) (ls : List Char) (a : Arr V) (hi : c.iter = none) (h : getData isNan c t ls {} = .ok (some a)) :
    t ≠ .other ∧ ¬ (t = .stateTurbine ∧ c.dw.isSome) ∧ search c t ls = .ok (some a) := by
  unfold getData at h
  split at h
  · simp at h
  · split at h
    · simp at h
    · rename_i g1 g2
      refine ⟨g1, g2, ?_⟩
      cases hs : search c t ls with
      | error e => simp [hs] at h
      | ok x =>
        cases x with
        | none => simp [hs] at h
        | some b =>
          simp only [hs, uses_none c t hi, post_plain] at h
          simpa using h

/-- C51 finding: `accept_nan=False` rejects only data that are NaN everywhere; data with a single number pass. -/
theorem C51_nan_check (c : Ctx V) (t : Target) (a : Arr V) (ls : List Char) (hi : c.iter = none) (hs : getData isNan c t ls {} = .ok (some a)) :
    ((∀ idx, Inside idx a.shape → isNan (a.val idx) = true) → getData isNan c t ls { acceptNan := false } = .error .valueError) ∧
    ((∃ idx, Inside idx a.shape ∧ isNan (a.val idx) = false) → getData isNan c t ls { acceptNan := false } = .ok (some a)) := by
  obtain ⟨ht, h1, h2⟩ := search_of_get isNan c t ls a hi hs
  constructor
  · intro h
    have : (indices a.shape).all (fun i => isNan (a.val i)) = true := by
      rw [List.all_eq_true]; intro i hi; exact h i ((mem_indices _ _).1 hi)
    rw [getData, if_neg ht, if_neg h1, h2, uses_none c t hi]
    simp only [postprocess, this]
    simp
  · rintro ⟨idx, h3, h4⟩
    have : (indices a.shape).all (fun i => isNan (a.val i)) = false := by
      rw [List.all_eq_false]
      exact ⟨idx, (mem_indices _ _).2 h3, by simpa using h4⟩
    rw [getData, if_neg ht, if_neg h1, h2, uses_none c t hi]
    simp [postprocess, this, finish]

/-- the true entries of a mask over states and targets, states first -/
def trueCells (S T : ℕ) (mask : ℕ → ℕ → Bool) : List (ℕ × ℕ) :=
  (List.range S).flatMap (fun i => ((List.range T).filter (mask i)).map (fun k => (i, k)))

lemma hits_cells (S T : ℕ) (m : List ℕ → Bool) :
    (indices [S, T]).filter m = (trueCells S T (fun i k => m [i, k])).map (fun p => [p.1, p.2]) := by
  simp only [indices, trueCells, List.filter_flatMap, List.map_flatMap]
  apply List.flatMap_congr
  intro i _
  simp only [List.map_cons, List.map_nil, List.map_map, Function.comp_def]
  generalize List.range T = l
  induction l with
  | nil => rfl
  | cons x l ih =>
    rw [List.flatMap_cons, ih]
    by_cases hx : m [i, x] <;> simp [hx]

lemma cells_inside {S T : ℕ} {mask : ℕ → ℕ → Bool} {n : ℕ} {p : ℕ × ℕ} (h : (trueCells S T mask)[n]? = some p) : p.1 < S ∧ p.2 < T := by
  have := List.mem_of_getElem? h
  simp only [trueCells, List.mem_flatMap, List.mem_range, List.mem_map, List.mem_filter] at this
  obtain ⟨i, hi, k, hk, rfl⟩ := this
  exact ⟨hi, hk.1⟩

/-- the mask over states and targets as an array -/
def maskArr (S T : ℕ) (mask : ℕ → ℕ → Bool) : Arr Bool := ⟨[S, T], fun l => mask (l.headD 0) ((l.drop 1).headD 0)⟩

lemma select_targets (S T : ℕ) (mask : ℕ → ℕ → Bool) (a : Arr V) (hS : 0 < S) (hT : 0 < T) (hf : Fits a [S, T]) :
    ∃ r, select [S, T] (maskArr S T mask) a = .ok (r, [(trueCells S T mask).length]) ∧ r.shape = [(trueCells S T mask).length] ∧
      ∀ (n : ℕ) (p : ℕ × ℕ), (trueCells S T mask)[n]? = some p → r.val [n] = seen a [p.1, p.2] := by
  have hh : (indices [S, T]).filter (maskArr S T mask).val = (trueCells S T mask).map (fun p => [p.1, p.2]) := by
    rw [hits_cells]; rfl
  obtain ⟨sh, v⟩ := a
  have : ∃ n1 n2, sh = [n1, n2] ∧ (n1 = 1 ∨ n1 = S) ∧ (n2 = 1 ∨ n2 = T) := by
    unfold Fits at hf
    rcases hf with _ | ⟨hn1, _ | ⟨hn2, _ | _⟩⟩
    exact ⟨_, _, rfl, hn1, hn2⟩
  obtain ⟨n1, n2, rfl, hn1, hn2⟩ := this
  have hs : selShape [S, T] [S, T] [n1, n2] = .ok [S, T] := by
    have e1 : (if 1 < S then S else n1) = S := by split <;> omega
    have e2 : (if 1 < T then T else n2) = T := by split <;> omega
    simp [selShape, e1, e2]
  have main : ∀ b : Arr V, b.shape = [S, T] → (∀ idx, Inside idx [S, T] → b.val idx = seen (⟨[n1, n2], v⟩ : Arr V) idx) →
      (if [S, T] = [n1, n2] then .ok (⟨[n1, n2], v⟩ : Arr V) else upcast [S, T] ⟨[n1, n2], v⟩) = (Except.ok b : Except Err (Arr V)) →
      ∃ r, select [S, T] (maskArr S T mask) ⟨[n1, n2], v⟩ = .ok (r, [(trueCells S T mask).length]) ∧ r.shape = [(trueCells S T mask).length] ∧
      ∀ (n : ℕ) (p : ℕ × ℕ), (trueCells S T mask)[n]? = some p → r.val [n] = seen (⟨[n1, n2], v⟩ : Arr V) [p.1, p.2] := by
    intro b hbs hbv hbe
    refine ⟨⟨[(trueCells S T mask).length], fun idx => b.val ((((trueCells S T mask).map (fun p => [p.1, p.2]))[idx.headD 0]?).getD [] ++ idx.drop 1)⟩, ?_, rfl, ?_⟩
    · have e : (maskArr S T mask).shape = [S, T] := rfl
      simp only [select, e, hs, hbe, hbs, hh]
      simp
    · intro n p hp
      have := cells_inside hp
      simp only [List.headD_cons, List.getElem?_map, hp, Option.map_some, Option.getD_some, List.drop_succ_cons, List.drop_zero, List.append_nil]
      exact hbv _ (by simpa [Inside] using this)
  by_cases he : [S, T] = [n1, n2]
  · exact main ⟨[n1, n2], v⟩ he.symm (fun idx hidx => (seen_full he.symm hidx).symm) (by simp [he])
  · obtain ⟨r, h1, h2, h3⟩ := upcast_ok (⟨[n1, n2], v⟩ : Arr V) [S, T] hf
    exact main r h2 (fun idx _ => h3 idx) (by simp only [he, if_false]; exact h1)

lemma select_points (S T P : ℕ) (mask : ℕ → ℕ → Bool) (a : Arr V) (hS : 0 < S) (hT : 0 < T) (hf : Fits a [S, T, P]) :
    ∃ r, select [S, T, P] (maskArr S T mask) a = .ok (r, [(trueCells S T mask).length, P]) ∧ r.shape.length = 2 ∧ r.shape.take 1 = [(trueCells S T mask).length] ∧
      r.shape.drop 1 = a.shape.drop 2 ∧
      ∀ (n : ℕ) (p : ℕ × ℕ), (trueCells S T mask)[n]? = some p → ∀ q < P, r.val [n, if r.shape.drop 1 = [1] then 0 else q] = seen a [p.1, p.2, q] := by
  have hh : (indices [S, T]).filter (maskArr S T mask).val = (trueCells S T mask).map (fun p => [p.1, p.2]) := by
    rw [hits_cells]; rfl
  obtain ⟨sh, v⟩ := a
  have : ∃ n1 n2 n3, sh = [n1, n2, n3] ∧ (n1 = 1 ∨ n1 = S) ∧ (n2 = 1 ∨ n2 = T) ∧ (n3 = 1 ∨ n3 = P) := by
    unfold Fits at hf
    rcases hf with _ | ⟨hn1, _ | ⟨hn2, _ | ⟨hn3, _ | _⟩⟩⟩
    exact ⟨_, _, _, rfl, hn1, hn2, hn3⟩
  obtain ⟨n1, n2, n3, rfl, hn1, hn2, hn3⟩ := this
  have hs : selShape [S, T, P] [S, T] [n1, n2, n3] = .ok [S, T, n3] := by
    have e1 : (if 1 < S then S else n1) = S := by split <;> omega
    have e2 : (if 1 < T then T else n2) = T := by split <;> omega
    simp [selShape, e1, e2]
  have main : ∀ b : Arr V, b.shape = [S, T, n3] → (∀ idx, Inside idx [S, T, n3] → b.val idx = seen (⟨[n1, n2, n3], v⟩ : Arr V) idx) →
      (if [S, T, n3] = [n1, n2, n3] then .ok (⟨[n1, n2, n3], v⟩ : Arr V) else upcast [S, T, n3] ⟨[n1, n2, n3], v⟩) = (Except.ok b : Except Err (Arr V)) →
      ∃ r, select [S, T, P] (maskArr S T mask) ⟨[n1, n2, n3], v⟩ = .ok (r, [(trueCells S T mask).length, P]) ∧ r.shape.length = 2 ∧
      r.shape.take 1 = [(trueCells S T mask).length] ∧ r.shape.drop 1 = [n3] ∧
      ∀ (n : ℕ) (p : ℕ × ℕ), (trueCells S T mask)[n]? = some p → ∀ q < P, r.val [n, if r.shape.drop 1 = [1] then 0 else q] = seen (⟨[n1, n2, n3], v⟩ : Arr V) [p.1, p.2, q] := by
    intro b hbs hbv hbe
    refine ⟨⟨[(trueCells S T mask).length, n3], fun idx => b.val ((((trueCells S T mask).map (fun p => [p.1, p.2]))[idx.headD 0]?).getD [] ++ idx.drop 1)⟩, ?_, rfl, rfl, rfl, ?_⟩
    · have e : (maskArr S T mask).shape = [S, T] := rfl
      simp only [select, e, hs, hbe, hbs, hh]
      simp
    · intro n p hp q hq
      have := cells_inside hp
      simp only [List.headD_cons, List.getElem?_map, hp, Option.map_some, Option.getD_some, List.drop_succ_cons, List.drop_zero]
      by_cases h1 : n3 = 1
      · subst h1
        simp only [if_true]
        rw [hbv _ (by simpa [Inside] using this)]
        simp [seen]
      · have : n3 = P := by omega
        subst this
        simp only [List.cons.injEq, h1, and_true, if_false]
        exact hbv _ (by simpa [Inside, hq] using this)
  by_cases he : [S, T, n3] = [n1, n2, n3]
  · exact main ⟨[n1, n2, n3], v⟩ he.symm (fun idx hidx => (seen_full he.symm hidx).symm) (by simp [he])
  · obtain ⟨r, h1, h2, h3⟩ := upcast_ok (⟨[n1, n2, n3], v⟩ : Arr V) [S, T, n3] (by simpa [Fits] using ⟨hn1, hn2⟩)
    exact main r h2 (fun idx _ => h3 idx) (by simp only [he, if_false]; exact h1)

/-- C51: a boolean selection of states and targets returns, in the order of states and then targets, the values that are seen in the selected cells. -/
theorem C51_selection_targets (c : Ctx V) (ls : List Char) (a : Arr V) (mask : ℕ → ℕ → Bool) (hi : c.iter = none) (hS : 0 < c.nStates) (hT : 0 < c.nTargets)
    (h : getData isNan c .stateTarget ls {} = .ok (some a)) (hf : Fits a [c.nStates, c.nTargets]) (up : Bool) :
    ∃ r, getData isNan c .stateTarget ls { selection := some (maskArr c.nStates c.nTargets mask), up := up } = .ok (some r) ∧
      r.shape = [(trueCells c.nStates c.nTargets mask).length] ∧
      ∀ (n : ℕ) (p : ℕ × ℕ), (trueCells c.nStates c.nTargets mask)[n]? = some p → r.val [n] = seen a [p.1, p.2] := by
  obtain ⟨ht, h1, h2⟩ := search_of_get isNan c _ ls a hi h
  obtain ⟨r, g1, g2, g3⟩ := select_targets c.nStates c.nTargets mask a hS hT hf
  refine ⟨r, ?_, g2, g3⟩
  rw [getData, if_neg ht, if_neg h1, h2, uses_none c _ hi]
  simp [postprocess, tShape, g1, finish, g2]

/-- C51: the same for data per target point: a selection of states and targets keeps the points of each selected target; with `upcast` the result has all of them. -/
theorem C51_selection_points (c : Ctx V) (ls : List Char) (a : Arr V) (mask : ℕ → ℕ → Bool) (hi : c.iter = none) (hS : 0 < c.nStates) (hT : 0 < c.nTargets)
    (h : getData isNan c .stateTargetTpoint ls {} = .ok (some a)) (hf : Fits a [c.nStates, c.nTargets, c.nTpoints]) (up : Bool) :
    ∃ r, getData isNan c .stateTargetTpoint ls { selection := some (maskArr c.nStates c.nTargets mask), up := up } = .ok (some r) ∧
      (up = true → r.shape = [(trueCells c.nStates c.nTargets mask).length, c.nTpoints]) ∧
      ∀ (n : ℕ) (p : ℕ × ℕ), (trueCells c.nStates c.nTargets mask)[n]? = some p → ∀ q < c.nTpoints, seen r [n, q] = seen a [p.1, p.2, q] := by
  obtain ⟨ht, h1, h2⟩ := search_of_get isNan c _ ls a hi h
  obtain ⟨r, g1, g2, g3, g4, g5⟩ := select_points c.nStates c.nTargets c.nTpoints mask a hS hT hf
  obtain ⟨sh, v⟩ := r
  obtain ⟨x, y, rfl⟩ : ∃ x y, sh = [x, y] := by
    match sh, g2 with
    | [x, y], _ => exact ⟨x, y, rfl⟩
  simp only [List.take_succ_cons, List.take_zero, List.cons.injEq, and_true] at g3
  subst g3
  have hy : y = 1 ∨ y = c.nTpoints := by
    obtain ⟨sa, va⟩ := a
    unfold Fits at hf
    rcases hf with _ | ⟨hn1, _ | ⟨hn2, _ | ⟨hn3, _ | _⟩⟩⟩
    simp at g4
    subst g4
    exact hn3
  have hseen : ∀ (n : ℕ) (p : ℕ × ℕ), (trueCells c.nStates c.nTargets mask)[n]? = some p → ∀ q < c.nTpoints,
      seen (⟨[(trueCells c.nStates c.nTargets mask).length, y], v⟩ : Arr V) [n, q] = seen a [p.1, p.2, q] := by
    intro n p hp q hq
    rw [← g5 n p hp q hq]
    have hn : n < (trueCells c.nStates c.nTargets mask).length := (List.getElem?_eq_some_iff.1 hp).1
    have e1 : (if (trueCells c.nStates c.nTargets mask).length = 1 then 0 else n) = n := by split <;> omega
    simp [seen, e1]
  by_cases hup : up = true ∧ y ≠ c.nTpoints
  · obtain ⟨hup, hy'⟩ := hup
    obtain ⟨r, k1, k2, k3⟩ := upcast_ok (⟨[(trueCells c.nStates c.nTargets mask).length, y], v⟩ : Arr V) [(trueCells c.nStates c.nTargets mask).length, c.nTpoints]
      (by simpa [Fits] using hy)
    refine ⟨r, ?_, fun _ => k2, ?_⟩
    · rw [getData, if_neg ht, if_neg h1, h2, uses_none c _ hi]
      simp [postprocess, tShape, g1, finish, hup, hy', k1, Except.map]
    · intro n p hp q hq
      have hn : n < (trueCells c.nStates c.nTargets mask).length := (List.getElem?_eq_some_iff.1 hp).1
      rw [seen_full k2 (by simpa [Inside] using ⟨hn, hq⟩), k3]
      exact hseen n p hp q hq
  · refine ⟨⟨[(trueCells c.nStates c.nTargets mask).length, y], v⟩, ?_, ?_, hseen⟩
    · rw [getData, if_neg ht, if_neg h1, h2, uses_none c _ hi]
      have hf : (up && decide ([(trueCells c.nStates c.nTargets mask).length, y] ≠ [(trueCells c.nStates c.nTargets mask).length, c.nTpoints])) = false := by
        rcases Bool.eq_false_or_eq_true up with h | h
        · have : y = c.nTpoints := by by_contra h'; exact hup ⟨h, h'⟩
          simp [this]
        · simp [h]
      simp only [postprocess, tShape, g1, finish, hf]
      simp
    · intro h
      have : y = c.nTpoints := by by_contra h'; exact hup ⟨h, h'⟩
      simp [this]

/-- C51 (wake growth): what the constructor accepts: a number `k`, or `ka` with or without `kb` (where `kb` needs a `ka` other than zero), or nothing. -/
theorem C51_wakek_arguments (k ka kb : Option ℚ) (v : TiVar) :
    (∃ w, WakeK.new k ka kb v = .ok w) ↔ (k = none ∨ (ka = none ∧ kb = none)) ∧ (kb = none ∨ ∃ x, ka = some x ∧ x ≠ 0) := by
  unfold WakeK.new
  cases k <;> cases ka <;> cases kb <;> simp
  split <;> simp_all

/-- C51 (wake growth): with `k` given, all wakes grow with that number, whatever the farm data say; outside of time dependent wakes. -/
theorem C51_wakek_number (nanQ : ℚ → Bool) (w : WakeK) (x : ℚ) (v : TiVar) (hw : WakeK.new (some x) none none v = .ok w) (cT c : Ctx ℚ) (t : Target) (ht : t ≠ .other)
    (hi : c.iter = none) (hd : t = .stateTurbine → c.dw = none) (tg ag : Option (Arr ℚ)) :
    ∃ r, w.run nanQ cT c t {} tg ag = .ok (some r) ∧ ∀ idx, seen r idx = x := by
  obtain rfl : w = ⟨some x, none, none, v⟩ := by simpa [WakeK.new] using hw.symm
  have := C51_own_number nanQ { c with own := some ⟨[], fun _ => x⟩ } t x ['w'] ht hi hd rfl
  simpa [WakeK.run, WakeK.stored] using this

/-- C51 (wake growth): with `ka`, `kb`, the wake of turbine `j` grows with `ka * TI + kb`, the turbulence intensity of turbine `j` at the same state. -/
theorem C51_wakek_ti (nanQ : ℚ → Bool) (w : WakeK) (ka : ℚ) (kb : Option ℚ) (v : TiVar) (hw : WakeK.new none (some ka) kb v = .ok w) (cT c : Ctx ℚ) (t : Target)
    (ht : t = .stateTarget ∨ t = .stateTargetTpoint) (f : Source ℚ) (j m : ℕ)
    (hiT : cT.iter = none) (hi : c.iter = none) (hf : cT.fdata = some f) (hs : f.dims = ["state", "turbine"]) (hsh : f.arr.shape = [cT.nStates, m])
    (hj : cT.dw = some j) (htd : cT.hasTdata = true) (ha : cT.hasAlgo = true)
    (hsame : c.nStates = cT.nStates ∧ c.nTargets = cT.nTargets ∧ c.nTpoints = cT.nTpoints) :
    ∃ r, w.run nanQ cT c t {} none none = .ok (some r) ∧ ∀ idx, Inside idx (tShape cT t) → seen r idx = ka * f.arr.val [idx.headD 0, j] + kb.getD 0 := by
  obtain rfl : w = ⟨none, some ka, kb, v⟩ := by
    unfold WakeK.new at hw
    simp only [Option.isSome_none, Bool.false_eq_true, false_and, if_false] at hw
    split at hw
    · simp at hw
    · simpa using hw.symm
  obtain ⟨a, h1, h2, h3⟩ := search_farm cT t f j m 'w' [] ht (Or.inr rfl) hf hs hsh hj htd ha
  have e1 : t ≠ .other := by rcases ht with rfl | rfl <;> simp
  have e2 : ∀ d : Option ℕ, ¬ (t = .stateTurbine ∧ d.isSome) := by rcases ht with rfl | rfl <;> simp
  have hg : getData nanQ cT t ['w'] {} = .ok (some a) := by
    rw [getData, if_neg e1, if_neg (e2 _), h1, uses_none cT t hiT]
    exact post_plain _ _ _ _
  have hst : WakeK.stored ⟨none, some ka, kb, v⟩ nanQ cT t {} none none = .ok (some ⟨a.shape, fun i => ka * a.val i + kb.getD 0⟩) := by
    simp [WakeK.stored, hg]
  have hshape : tShape { c with own := some (⟨a.shape, fun i => ka * a.val i + kb.getD 0⟩ : Arr ℚ) } t = tShape cT t := by
    rcases ht with rfl | rfl <;> simp [tShape, hsame]
  refine ⟨⟨a.shape, fun i => ka * a.val i + kb.getD 0⟩, ?_, ?_⟩
  · unfold WakeK.run
    rw [hst]
    simp only
    have hm : matchShape (tShape cT t) (⟨a.shape, fun i => ka * a.val i + kb.getD 0⟩ : Arr ℚ) = .ok ⟨a.shape, fun i => ka * a.val i + kb.getD 0⟩ := by
      have := h2.length_eq
      simp [matchShape, this]
    have hl : search { c with own := some (⟨a.shape, fun i => ka * a.val i + kb.getD 0⟩ : Arr ℚ) } t ['s', 'w'] = .ok (some ⟨a.shape, fun i => ka * a.val i + kb.getD 0⟩) := by
      simp only [search, look, if_true, hshape, hm]
      rfl
    rw [getData, if_neg e1, if_neg (e2 _), hl, uses_none { c with own := some (⟨a.shape, fun i => ka * a.val i + kb.getD 0⟩ : Arr ℚ) } t hi]
    exact post_plain _ _ _ _
  · intro idx hidx
    have := h3 idx hidx
    simp only [seen] at this ⊢
    rw [this]

/-- C51 (wake growth): turbulence intensities that the caller knows already are used directly, with the same formula. -/
theorem C51_wakek_ti_given (nanQ : ℚ → Bool) (w : WakeK) (ka : ℚ) (kb : Option ℚ) (v : TiVar) (hw : WakeK.new none (some ka) kb v = .ok w) (cT c : Ctx ℚ) (t : Target)
    (ht : t = .stateTarget ∨ t = .stateTargetTpoint) (hi : c.iter = none) (a other : Arr ℚ) (hfit : Fits a (tShape c t)) :
    (v = .ti → ∃ r, w.run nanQ cT c t {} (some a) (some other) = .ok (some r) ∧ ∀ idx, seen r idx = ka * seen a idx + kb.getD 0) ∧
    (v = .ambTi → ∃ r, w.run nanQ cT c t {} (some other) (some a) = .ok (some r) ∧ ∀ idx, seen r idx = ka * seen a idx + kb.getD 0) := by
  obtain rfl : w = ⟨none, some ka, kb, v⟩ := by
    unfold WakeK.new at hw
    simp only [Option.isSome_none, Bool.false_eq_true, false_and, if_false] at hw
    split at hw
    · simp at hw
    · simpa using hw.symm
  have e1 : t ≠ .other := by rcases ht with rfl | rfl <;> simp
  have e2 : ∀ d : Option ℕ, ¬ (t = .stateTurbine ∧ d.isSome) := by rcases ht with rfl | rfl <;> simp
  have hshape : tShape { c with own := some (⟨a.shape, fun i => ka * a.val i + kb.getD 0⟩ : Arr ℚ) } t = tShape c t := by
    rcases ht with rfl | rfl <;> simp [tShape]
  have hg : getData nanQ { c with own := some (⟨a.shape, fun i => ka * a.val i + kb.getD 0⟩ : Arr ℚ) } t ['s', 'w'] {} =
      .ok (some ⟨a.shape, fun i => ka * a.val i + kb.getD 0⟩) := by
    have hm : matchShape (tShape c t) (⟨a.shape, fun i => ka * a.val i + kb.getD 0⟩ : Arr ℚ) = .ok ⟨a.shape, fun i => ka * a.val i + kb.getD 0⟩ := by
      have := hfit.length_eq
      simp [matchShape, this]
    have hl : search { c with own := some (⟨a.shape, fun i => ka * a.val i + kb.getD 0⟩ : Arr ℚ) } t ['s', 'w'] = .ok (some ⟨a.shape, fun i => ka * a.val i + kb.getD 0⟩) := by
      simp only [search, look, if_true, hshape, hm]
      rfl
    rw [getData, if_neg e1, if_neg (e2 _), hl, uses_none { c with own := some (⟨a.shape, fun i => ka * a.val i + kb.getD 0⟩ : Arr ℚ) } t hi]
    exact post_plain _ _ _ _
  constructor <;> rintro rfl <;> exact ⟨⟨a.shape, fun i => ka * a.val i + kb.getD 0⟩, by simpa [WakeK.run, WakeK.stored] using hg, fun idx => rfl⟩

/-- C51 (wake growth): with no argument, the wake of turbine `j` grows with the farm variable of turbine `j`. -/
theorem C51_wakek_farm (nanQ : ℚ → Bool) (w : WakeK) (v : TiVar) (hw : WakeK.new none none none v = .ok w) (cT c : Ctx ℚ) (t : Target)
    (ht : t = .stateTarget ∨ t = .stateTargetTpoint) (f : Source ℚ) (j m : ℕ) (hi : c.iter = none) (hf : c.fdata = some f)
    (hs : f.dims = ["state", "turbine"]) (hsh : f.arr.shape = [c.nStates, m]) (hj : c.dw = some j) (htd : c.hasTdata = true) (ha : c.hasAlgo = true)
    (tg ag : Option (Arr ℚ)) :
    ∃ r, w.run nanQ cT c t {} tg ag = .ok (some r) ∧ ∀ idx, Inside idx (tShape c t) → seen r idx = f.arr.val [idx.headD 0, j] := by
  obtain rfl : w = ⟨none, none, none, v⟩ := by simpa [WakeK.new] using hw.symm
  have h := C51_farm_column nanQ { c with own := none } t f j m 'w' [] ht (Or.inr rfl) hi hf hs hsh hj htd ha
  have h2 := (C51_skip nanQ { c with own := none } t ['w'] {}).1 rfl
  have e : tShape { c with own := none } t = tShape c t := by cases t <;> rfl
  rw [← h2, e] at h
  simpa [WakeK.run, WakeK.stored] using h

/-- C51 finding (wake growth): with time dependent wakes, a number `k` given by the user is ignored as soon as the farm data contain the variable: the wake of turbine `j`
grows with the farm's value. -/
theorem C51_wakek_dynamic_overwritten (nanQ : ℚ → Bool) (w : WakeK) (x : ℚ) (v : TiVar) (hw : WakeK.new (some x) none none v = .ok w) (cT c : Ctx ℚ) (f : Source ℚ) (it : Iter ℚ)
    (j m : ℕ) (G : ℕ → ℕ → ℚ) (hd : Dynamic c f it j m) (hp : it.prev = some G) (hrows : ∀ i < c.nStates, f.arr.val [i, j] = G (it.i0 + i) j)
    (hpast : ∀ i < c.nStates, ∀ k < c.nTargets, ∀ p < c.nTpoints, it.statesSel i k p < it.i0 + c.nStates) (tg ag : Option (Arr ℚ)) :
    ∃ r, w.run nanQ cT c .stateTargetTpoint {} tg ag = .ok (some r) ∧
      ∀ i < c.nStates, ∀ k < c.nTargets, ∀ p < c.nTpoints, r.val [i, k, p] = G (it.statesSel i k p) j := by
  obtain rfl : w = ⟨some x, none, none, v⟩ := by simpa [WakeK.new] using hw.symm
  have := C51_own_overwritten nanQ { c with own := some ⟨[], fun _ => x⟩ } f it j m x G ['w']
    ⟨hd.iter, hd.farm, hd.dims, hd.shape, hd.index, hd.targets, hd.algo, hd.order, hd.iterative⟩ rfl hp hrows hpast
  simpa [WakeK.run, WakeK.stored] using this

/-- C51 (wake growth): calls of one object that do not overlap in time each read what they wrote themselves, for any number of calls in any order. -/
theorem C51_wakek_serial_partial {A : Type} (v : ℕ → A) (m : Option A) (calls : List ℕ) :
    runSchedule v m (calls.flatMap (fun i => [(i, .write), (i, .read), (i, .clear)])) = calls.map (fun i => (i, some (v i))) := by
  induction calls generalizing m with
  | nil => rfl
  | cons i l ih => simp [runSchedule, ih]

/-- C51 finding (wake growth): calls that overlap, as they do when chunks run in threads, are not safe: for any two calls there are interleavings in which the second call
finds no value, and in which the first call reads the value of the second. -/
theorem C51_wakek_race {A : Type} (v : ℕ → A) (i j : ℕ) :
    runSchedule v none [(i, .write), (j, .write), (i, .read), (i, .clear), (j, .read), (j, .clear)] = [(i, some (v j)), (j, none)] := rfl

/-! ### The hypotheses can be met -/

/-- farm data of a chunk of two states and two turbines -/
def exFarm : Source ℚ := ⟨["state", "turbine"], ⟨[2, 2], fun l => (l.headD 0 : ℚ) * 10 + ((l.drop 1).headD 0 : ℚ)⟩⟩

/-- a chunk of two states, three targets, one point -/
def exCtx : Ctx ℚ := ⟨2, 2, 3, 1, none, none, some exFarm, none, true, true, some 1, none⟩

example : ∃ r, getData (fun _ => false) exCtx .stateTarget ['s', 'm', 'f'] {} = .ok (some r) ∧ seen r [1, 2] = 11 := by
  rw [(C51_skip _ exCtx .stateTarget ['m', 'f'] {}).1 rfl, (C51_skip _ exCtx .stateTarget ['f'] {}).2.1 rfl]
  obtain ⟨r, h1, h2⟩ := C51_farm_column (fun _ => false) exCtx .stateTarget exFarm 1 2 'f' [] (Or.inl rfl) (Or.inl rfl) rfl rfl rfl rfl rfl rfl rfl
  refine ⟨r, h1, ?_⟩
  rw [h2 _ (by simp [Inside, tShape, exCtx])]
  norm_num [exFarm]

/-- the second chunk of a run with time dependent wakes: wakes are one state old -/
def exIter : Iter ℚ := ⟨fun i _ _ => 1 + i, 1, 2, fun _ => 1, true, some (fun s j => (s : ℚ) * 10 + j - 20)⟩

def exDyn : Ctx ℚ := { exCtx with iter := some exIter }

example : Dynamic exDyn exFarm exIter 1 2 := ⟨rfl, rfl, rfl, rfl, rfl, rfl, rfl, rfl, rfl⟩

example : ∃ r, getData (fun _ => false) exDyn .stateTarget ['w'] {} = .ok (some r) ∧ r.val [0, 2] = -9 ∧ r.val [1, 0] = 1 := by
  obtain ⟨r, h1, _, h2⟩ := C51_iteration_targets (fun _ => false) exDyn exFarm exIter (fun s j => (s : ℚ) * 10 + j - 20) 1 2 'w' [] (fun i _ => 1 + i) (Or.inr rfl)
    ⟨rfl, rfl, rfl, rfl, rfl, rfl, rfl, rfl, rfl⟩ rfl (by intro i _; norm_num [exFarm, exIter]; ring) (by decide) (by simp [exDyn, exCtx, exIter])
    (by intro i _ k _ p _; rfl) (by intro i hi k _; simp [exDyn, exCtx, exIter] at hi ⊢; omega)
  refine ⟨r, h1, ?_, ?_⟩
  · rw [h2 0 (by decide) 2 (by decide)]; norm_num
  · rw [h2 1 (by decide) 0 (by decide)]; norm_num

example : ∃ r, getData (fun _ => false) exDyn .stateTargetTpoint ['w'] {} = .ok (some r) ∧ r.val [0, 2, 0] = -9 := by
  obtain ⟨r, h1, _, h2⟩ := C51_iteration_points (fun _ => false) exDyn exFarm exIter (fun s j => (s : ℚ) * 10 + j - 20) 1 2 'w' [] (Or.inr rfl)
    ⟨rfl, rfl, rfl, rfl, rfl, rfl, rfl, rfl, rfl⟩ rfl (by intro i _; norm_num [exFarm, exIter]; ring)
    (by intro i hi k _ p _; simp [exDyn, exCtx, exIter] at hi ⊢; omega)
  refine ⟨r, h1, ?_⟩
  rw [h2 0 (by decide) 2 (by decide) 0 (by decide)]; norm_num [exIter]

example : ∃ r, getData (fun _ => false) exCtx .stateTarget ['f'] { selection := some (maskArr 2 3 (fun i k => decide (i + k = 2))) } = .ok (some r) ∧
    r.shape = [2] ∧ r.val [0] = 1 ∧ r.val [1] = 11 := by
  obtain ⟨a, h1, hfit, hseen⟩ := search_farm exCtx .stateTarget exFarm 1 2 'f' [] (Or.inl rfl) (Or.inl rfl) rfl rfl rfl rfl rfl rfl
  have hg : getData (fun _ => false) exCtx .stateTarget ['f'] {} = .ok (some a) := by
    rw [getData, if_neg (by simp), if_neg (by simp), h1, uses_none _ _ rfl]
    exact post_plain _ _ _ _
  obtain ⟨r, g1, g2, g3⟩ := C51_selection_targets (fun _ => false) exCtx ['f'] a (fun i k => decide (i + k = 2)) rfl (by decide) (by decide) hg hfit false
  refine ⟨r, g1, g2, ?_, ?_⟩
  · rw [g3 0 (0, 2) (by decide), hseen _ (by simp [Inside, tShape, exCtx])]; norm_num [exFarm]
  · rw [g3 1 (1, 1) (by decide), hseen _ (by simp [Inside, tShape, exCtx])]; norm_num [exFarm]

example : ∃ w, WakeK.new none (some (4 / 10)) (some (1 / 100)) .ti = .ok w := (C51_wakek_arguments _ _ _ _).2 ⟨Or.inl rfl, Or.inr ⟨_, rfl, by norm_num⟩⟩

end Foxes.Props.GetData
