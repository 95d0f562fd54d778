import Verif.Model.Iterative
import Verif.Props.Numbering
import Mathlib.Tactic.Linarith
/-
C15: the loop stops. C17: order of the reported results. C18: convergence criterion.
C16 (end): the loop delivers the Downwind result.
-/
namespace Foxes.Props.Iterative
open Foxes.Iterative Foxes.Downwind

variable {Res : Type}

/-- The results of the sweeps: sweep `k + 1` starts from the results of sweep `k`. -/
def sweepRes (s : Setup Res) : Nat → Res
  | 0 => s.sweep 0 none
  | k + 1 => s.sweep (k + 1) (some (sweepRes s k))

/-- what sweep `k` has as previous results -/
def prevRes (s : Setup Res) (k : Nat) : Option Res := if k = 0 then none else some (sweepRes s (k - 1))

/-- the criterion holds after sweep `k` and is not blocked -/
def ConvergedAt (s : Setup Res) (k : Nat) : Prop :=
  ∃ conv, s.crit = some conv ∧ s.blocked k = false ∧ conv (prevRes s k) (sweepRes s k) = true

theorem sweepRes_eq (s : Setup Res) (k : Nat) : sweepRes s k = s.sweep k (prevRes s k) := by
  cases k <;> simp [sweepRes, prevRes]

theorem stops_iff (s : Setup Res) (k : Nat) :
    stops s k (prevRes s k) (sweepRes s k) = true ↔ ConvergedAt s k := by
  unfold stops ConvergedAt
  cases h : s.crit with
  | none => simp
  | some conv => cases hb : s.blocked k <;> simp

theorem loop_spec (s : Setup Res) (r k : Nat) :
    ∃ m, k ≤ m ∧ m ≤ k + r ∧ loop s r k (prevRes s k) = { it := m, prev := prevRes s m, fres := sweepRes s m } ∧
      (∀ i, k ≤ i → i < m → ¬ ConvergedAt s i) ∧ (ConvergedAt s m ∨ m = k + r) := by
  induction r generalizing k with
  | zero => exact ⟨k, Nat.le_refl _, Nat.le_refl _, by rw [loop, ← sweepRes_eq], by omega, Or.inr rfl⟩
  | succ r ih =>
    rw [loop, ← sweepRes_eq]
    by_cases hs : stops s k (prevRes s k) (sweepRes s k) = true
    · exact ⟨k, Nat.le_refl _, by omega, by rw [if_pos hs], by omega, Or.inl ((stops_iff s k).1 hs)⟩
    · obtain ⟨m, h1, h2, h3, h4, h5⟩ := ih (k + 1)
      have hp : prevRes s (k + 1) = some (sweepRes s k) := by simp [prevRes]
      rw [hp] at h3
      refine ⟨m, by omega, by omega, by rw [if_neg hs, h3], ?_, ?_⟩
      · intro i hi him
        rcases Nat.lt_or_ge k i with h | h
        · exact h4 i h him
        · have : i = k := by omega
          subst this
          exact fun hc => hs ((stops_iff s i).2 hc)
      · rcases h5 with h5 | h5
        · exact Or.inl h5
        · right; omega

/-- **C15.** The loop performs the sweeps `0, 1, ..., it` with `it <= max_it`, i.e. at most
`max_it + 1`; it stops at the first sweep at which the criterion holds and is not blocked, or at
`max_it`; and the last sweep's results are those of the loop. -/
theorem C15_loop_stops (s : Setup Res) (maxIt : Nat) :
    (run s maxIt).it ≤ maxIt ∧ (run s maxIt).fres = sweepRes s (run s maxIt).it ∧
    (∀ i, i < (run s maxIt).it → ¬ ConvergedAt s i) ∧
    (ConvergedAt s (run s maxIt).it ∨ (run s maxIt).it = maxIt) := by
  obtain ⟨m, _, h2, h3, h4, h5⟩ := loop_spec s maxIt 0
  have h : run s maxIt = { it := m, prev := prevRes s m, fres := sweepRes s m } := h3
  rw [h]
  exact ⟨by simpa using h2, rfl, fun i hi => h4 i (by omega) hi, by simpa using h5⟩

/-- a setup counting upwards; converges when the value reaches 5 -/
def exSetup : Setup Nat :=
  { sweep := fun _ p => match p with | none => 0 | some x => x + 1, blocked := fun k => k == 5,
    crit := some (fun _ x => decide (x ≥ 5)) }

/-- blocked at 5, stops at 6 -/
example : (run exSetup 50).it = 6 ∧ (run exSetup 50).fres = 6 ∧ (run exSetup 3).it = 3 := by decide

/-! ### What is returned -/

/-- **C17/C15, finding.** Unless the loop ended in iteration 0, an ambient or an under-relaxed run, the returned
farm results are the reordered results of the sweep *before* the last one: `__prev_farm_results`
is not updated after the loop. -/
theorem C17_returns_previous_sweep (s : Setup Res) (maxIt : Nat) (rerun : Option Res → Res) (reorder : Res → Res)
    (h : (run s maxIt).it ≠ 0) :
    final (run s maxIt) false false rerun reorder = reorder (sweepRes s ((run s maxIt).it - 1)) := by
  obtain ⟨m, _, _, h3, _, _⟩ := loop_spec s maxIt 0
  have hr : run s maxIt = { it := m, prev := prevRes s m, fres := sweepRes s m } := h3
  rw [hr] at h ⊢
  simp only at h
  simp [final, finalKind, h, prevRes]

/-- **C17 (finding: the last sweep is lost).** There is a run whose returned results are not those of
the last sweep. -/
theorem C17_last_sweep_lost :
    final (run exSetup 50) false false (fun _ => 0) id ≠ (run exSetup 50).fres := by decide

/-- **C17 (partial).** The results are put back into farm order exactly if the loop did not end in iteration 0
and the run is neither ambient nor re-calculating ambient results. -/
theorem C17_reordered_iff_partial (s : Setup Res) (maxIt : Nat) (ambient reamb : Bool) :
    finalKind (run s maxIt).it ambient reamb = .reorder ↔
      (run s maxIt).it ≠ 0 ∧ ambient = false ∧ reamb = false := by
  unfold finalKind
  by_cases h : (run s maxIt).it = 0
  · simp [h]
  · cases ambient <;> cases reamb <;> simp [h]

/-- **C17 (refuted).** An ambient calculation with the iterative algorithm always returns the results in
downwind order, whatever `reorder` would do. -/
theorem C17_ambient_never_reordered (s : Setup Res) (maxIt : Nat) (reamb : Bool) (rerun : Option Res → Res)
    (reorder : Res → Res) :
    final (run s maxIt) true reamb rerun reorder = rerun (run s maxIt).prev := by
  unfold final finalKind
  by_cases h : (run s maxIt).it = 0 <;> simp [h]

/-! ### C18 -/

section Conv
variable {K : Type} [Field K] [LinearOrder K] [IsStrictOrderedRing K]

/-- "changed by no more than `lim` everywhere": position by position, both values are numbers and
their (circular, for wind directions) difference is at most `lim` in absolute value. -/
def Within (isWd : Bool) (lim : K) (x0 x : List (Option K)) : Prop :=
  ∀ i, i < x0.length → i < x.length → ∃ a b, x0[i]? = some (some a) ∧ x[i]? = some (some b) ∧
    |if isWd then WindDir.deltaWd a b else b - a| ≤ lim

theorem maxAbs_le (l : List (Option K)) (lim : K) (h0 : 0 ≤ lim) :
    (∃ m, maxAbs l = some m ∧ m ≤ lim) ↔ ∀ d ∈ l, ∃ v, d = some v ∧ |v| ≤ lim := by
  induction l with
  | nil => simp [maxAbs, h0]
  | cons d l ih =>
    rw [List.forall_mem_cons, ← ih]
    cases d with
    | none => simp [maxAbs]
    | some v =>
      cases hm : maxAbs l with
      | none => simp [maxAbs, hm]
      | some m => simp [maxAbs, hm]

theorem deltas_within (isWd : Bool) (lim : K) (h0 : 0 ≤ lim) (x0 x : List (Option K)) :
    (∃ m, maxAbs (deltas isWd x0 x) = some m ∧ m ≤ lim) ↔ Within isWd lim x0 x := by
  rw [maxAbs_le _ _ h0]
  unfold Within deltas
  constructor
  · intro h i hi hj
    have hlen : i < (List.zipWith (fun a b : Option K => match a, b with
        | some a, some b => some (if isWd then WindDir.deltaWd a b else b - a)
        | _, _ => none) x0 x).length := by simp [hi, hj]
    obtain ⟨v, hv, hl⟩ := h _ (List.getElem_mem hlen)
    rw [List.getElem_zipWith] at hv
    cases ha : x0[i] with
    | none => rw [ha] at hv; simp at hv
    | some a =>
      cases hb : x[i] with
      | none => rw [ha, hb] at hv; simp at hv
      | some b =>
        rw [ha, hb] at hv
        simp only [Option.some.injEq] at hv
        refine ⟨a, b, ?_, ?_, by rw [hv]; exact hl⟩
        · rw [List.getElem?_eq_getElem hi, ha]
        · rw [List.getElem?_eq_getElem hj, hb]
  · intro h d hd
    obtain ⟨i, hi, rfl⟩ := List.getElem_of_mem hd
    have hi2 : i < x0.length ∧ i < x.length := by simpa using hi
    obtain ⟨a, b, ha, hb, hl⟩ := h i hi2.1 hi2.2
    rw [List.getElem?_eq_getElem hi2.1, Option.some.injEq] at ha
    rw [List.getElem?_eq_getElem hi2.2, Option.some.injEq] at hb
    refine ⟨_, ?_, hl⟩
    rw [List.getElem_zipWith, ha, hb]

/-- **C18.** `ConvVarDelta` reports convergence iff there are previous results and every listed variable
changed by no more than its limit everywhere; a NaN anywhere prevents convergence (it has no
difference). Limits are non-negative. -/
theorem C18_conv_var_delta (limits : List (String × K)) (hlim : ∀ vl ∈ limits, 0 ≤ vl.2) (wdVars : List String)
    (prev : Option (Results K)) (res : Results K) :
    convVarDelta limits wdVars prev res = true ↔
      ∃ p, prev = some p ∧ ∀ vl ∈ limits, Within (wdVars.contains vl.1) vl.2 (p vl.1) (res vl.1) := by
  cases prev with
  | none => simp [convVarDelta]
  | some p =>
    have gen : ∀ (l : List (String × K)), (∀ vl ∈ l, 0 ≤ vl.2) → ∀ ok, l.foldl (fun ok vl =>
      ok && (match maxAbs (deltas (wdVars.contains vl.1) (p vl.1) (res vl.1)) with
        | none => false
        | some check => decide (check ≤ vl.2))) ok = true ↔
        ok = true ∧ ∀ vl ∈ l, Within (wdVars.contains vl.1) vl.2 (p vl.1) (res vl.1) := by
      intro l
      induction l with
      | nil => intro _ ok; simp
      | cons vl l ih =>
        intro hl ok
        rw [List.foldl_cons, ih (fun v hv => hl v (List.mem_cons_of_mem _ hv)), List.forall_mem_cons,
          ← deltas_within _ _ (hl vl List.mem_cons_self)]
        cases hm : maxAbs (deltas (wdVars.contains vl.1) (p vl.1) (res vl.1)) with
        | none => simp
        | some m => simp [and_assoc]
    refine (gen limits hlim true).trans ?_
    simp

/-- **C18 (NaN).** -/
theorem C18_nan_never_converges (limits : List (String × K)) (hlim : ∀ vl ∈ limits, 0 ≤ vl.2) (wdVars : List String)
    (p res : Results K) (v : String) (lim : K) (hv : (v, lim) ∈ limits) (i : Nat) (hi : (res v)[i]? = some none)
    (hp : i < (p v).length) : convVarDelta limits wdVars (some p) res = false := by
  rw [Bool.eq_false_iff]
  intro h
  obtain ⟨p', he, hw⟩ := (C18_conv_var_delta limits hlim wdVars (some p) res).1 h
  cases he
  have hlt : i < (res v).length := by
    rcases Nat.lt_or_ge i (res v).length with h | h
    · exact h
    · rw [List.getElem?_eq_none h] at hi; cases hi
  obtain ⟨a, b, _, hb, _⟩ := hw _ hv i hp hlt
  rw [hi] at hb
  cases hb

/-- **C18 (lists).** A list of criteria is their conjunction. -/
theorem C18_list_is_conjunction (cs : List (Option (Results K) → Results K → Bool)) (prev : Option (Results K))
    (res : Results K) : convList cs prev res = true ↔ ∀ c ∈ cs, c prev res = true := by
  induction cs with
  | nil => simp [convList]
  | cons c cs ih =>
    rw [List.forall_mem_cons, ← ih, convList]
    cases c prev res <;> simp

end Conv

/-- wind directions 359 and 1 differ by 2 -/
example : convVarDelta [("WD", (2 : Rat)), ("REWS", 1)] ["WD"]
    (some (fun v => if v = "WD" then [some 359, some 10] else [some 8, some 9]))
    (fun v => if v = "WD" then [some 1, some 11] else [some 8, some 10]) = true ∧
    convVarDelta [("REWS", (1 : Rat))] ["WD"] (some (fun _ => [some 8])) (fun _ => [none]) = false ∧
    convVarDelta [("WD", (2 : Rat))] [] (some (fun _ => [some 359])) (fun _ => [some 1]) = false := by
  refine ⟨?_, ?_, ?_⟩ <;> decide +kernel

/-! ### C16, end to end -/

/-- **C16 (loop).** One downwind wake model, the sweeps of `Foxes.Downwind.sweep` and a criterion that is satisfied only
if the previous results exist and agree with the new ones: with `max_it >= n_turbines` the loop
ends by convergence and the data handed to the final reordering are the Downwind result, provided convergence is never
blocked. -/
theorem C16_iterative_returns_downwind {P S A R : Type} (c : Farm P S R) (w : Wake P S A R) (pos : Nat → P) (n : Nat)
    (hn : 0 < n) (h : Numbering.Downwards c w pos n) (crit : Option (Nat → S) → (Nat → S) → Bool)
    (hcrit : ∀ p f, crit p f = true ↔ ∃ q, p = some q ∧ ∀ j, j < n → q j = f j) (maxIt : Nat) (hmax : n ≤ maxIt)
    (reorder : (Nat → S) → (Nat → S)) (rerun : Option (Nat → S) → (Nat → S))
    (hre : ∀ f g : Nat → S, (∀ j, j < n → f j = g j) → ∀ t, t < n → reorder f t = reorder g t) :
    let s : Setup (Nat → S) := { sweep := fun _ p => match p with
                                   | none => sweeps c [w] pos n 1
                                   | some f => sweep c [w] pos n f,
                                 blocked := fun _ => false, crit := some crit }
    ∃ D, farmWakes c [w] pos n = .ok D ∧ 1 ≤ (run s maxIt).it ∧ (run s maxIt).it ≤ n ∧
      ∀ t, t < n → final (run s maxIt) false false rerun reorder t = reorder D t := by
  intro s
  obtain ⟨D, hD, h1, h2⟩ := Numbering.C16_sweeps_reach_downwind c w pos n h
  have hs : ∀ k, sweepRes s k = sweeps c [w] pos n (k + 1) := by
    intro k
    induction k with
    | zero => rfl
    | succ k ih => rw [sweepRes, ih]; rfl
  obtain ⟨q1, q2, q3, q4⟩ := C15_loop_stops s maxIt
  have hconv : ∀ k, ConvergedAt s k ↔ 1 ≤ k ∧ ∀ j, j < n → sweeps c [w] pos n k j = sweeps c [w] pos n (k + 1) j := by
    intro k
    unfold ConvergedAt
    cases k with
    | zero => simp [s, prevRes, hcrit]
    | succ k =>
      simp [s, prevRes, hcrit, hs]
  have hcn : ConvergedAt s n := (hconv n).2 ⟨hn, fun j hj => by rw [h2 n j (Nat.le_refl _) hj, h2 (n + 1) j (by omega) hj]⟩
  have hle : (run s maxIt).it ≤ n := by
    rcases Nat.lt_or_ge n (run s maxIt).it with hlt | hge
    · exact absurd hcn (q3 n hlt)
    · exact hge
  have hC : ConvergedAt s (run s maxIt).it := by
    rcases q4 with q | q
    · exact q
    · have : (run s maxIt).it = n := by omega
      rw [this]; exact hcn
  obtain ⟨c1, c2⟩ := (hconv _).1 hC
  refine ⟨D, hD, c1, hle, ?_⟩
  rw [C17_returns_previous_sweep s maxIt rerun reorder (by omega), hs]
  apply hre
  -- the previous sweep is already a fixed point
  obtain ⟨D', hD', hfix⟩ := Numbering.C16_fixed_point_is_downwind c w pos n h (sweeps c [w] pos n (run s maxIt).it)
    (fun j r hj => Numbering.sweeps_static c w pos n h _ j r hj)
  rw [hD] at hD'
  cases hD'
  intro j hj
  have := hfix.1 (fun j hj => (c2 j hj).symm) j hj
  rw [show (run s maxIt).it - 1 + 1 = (run s maxIt).it by omega]
  exact this

end Foxes.Props.Iterative
