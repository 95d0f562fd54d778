import Verif.Model.FinalWakes
import Mathlib.Algebra.BigOperators.Group.Finset.Basic
import Mathlib.Algebra.BigOperators.Ring.Finset
import Mathlib.Algebra.Order.BigOperators.Group.Finset
import Mathlib.Tactic.Linarith
import Mathlib.Tactic.NormNum
import Mathlib.Tactic.FieldSimp
import Mathlib.Tactic.Ring
/-
C88: final wake values at the rotor points of a turbine (partial wakes models and farm wakes calculation).
-/
namespace Foxes.Props.FinalWakes
open Foxes.FinalWakes

/-! ### specification -/

/-- the final value of one delta `y` at ambient value `x` -/
def fv (k : Final) (x y : ℝ) : ℝ :=
  match k with
  | .plain g => g y
  | .withAmb f => f x y

/-- the weighted sum of the entries of a list -/
noncomputable def wmean (w x : List ℝ) : ℝ := ∑ p ∈ Finset.range w.length, w.getD p 0 * x.getD p 0

/-! ### helpers -/

theorem zip_sum (x w : List ℝ) (h : x.length = w.length) : (List.zipWith (· * ·) x w).sum = wmean w x := by
  unfold wmean
  induction x generalizing w with
  | nil => cases w <;> simp_all
  | cons a x ih =>
    cases w with
    | nil => simp at h
    | cons b w =>
      simp only [List.zipWith_cons_cons, List.sum_cons, List.length_cons]
      rw [Finset.sum_range_succ', ih w (by simpa using h)]
      simp; ring

theorem wsum_eq (x w : List ℝ) (h : x.length = w.length) : wsum x w = .ok (wmean w x) := by
  unfold wsum; rw [if_pos h, zip_sum x w h]

theorem at_same (k : Final) (a d : List ℝ) (h : a.length = d.length) : k.at a d = .ok (List.zipWith (fv k) a d) := by
  cases k with
  | plain g =>
    unfold Final.at fv
    simp only [Except.ok.injEq]
    apply List.ext_getElem <;> simp [h]
  | withAmb f => simp [Final.at, bcast, h]; rfl

theorem at_one (k : Final) (a : List ℝ) (y : ℝ) (h : a.length ≠ 1) :
    k.at a [y] = .ok (match k with | .plain g => [g y] | .withAmb f => a.map fun x => f x y) := by
  cases k with
  | plain g => rfl
  | withAmb f =>
    unfold Final.at bcast
    simp only [List.length_singleton, h, if_false]
    match a with
    | [] => rfl
    | [x] => simp at h
    | x :: x' :: a => rfl

theorem pick_ok {rows : List (List ℝ)} {i : Nat} (h : i < rows.length) : pick rows i = .ok rows[i] := by
  unfold pick
  by_cases h1 : 1 < rows.length
  · simp [h1, h]
  · have : i = 0 := by omega
    subst this
    simp [h1, h]

/-- `n` turbines with `p` points each -/
def Table (rows : List (List ℝ)) (n p : Nat) : Prop := rows.length = n ∧ ∀ r ∈ rows, r.length = p

theorem table_row {rows : List (List ℝ)} {n p i : Nat} (h : Table rows n p) (hi : i < n) :
    ∃ r, rows[i]? = some r ∧ r.length = p ∧ pick rows i = .ok r := by
  have hl : i < rows.length := by rw [h.1]; exact hi
  exact ⟨rows[i], by simp [hl], h.2 _ (List.getElem_mem hl), pick_ok hl⟩

theorem addTo_ok {res : List (List ℝ)} {n p i : Nat} (h : Table res n p) (hi : i < n) (d : List ℝ) (r : List ℝ) (hr : res[i]? = some r) :
    (d.length = p → addTo res i d = .ok (res.set i (List.zipWith (· + ·) r d))) ∧
    (∀ y, d = [y] → p ≠ 1 → addTo res i d = .ok (res.set i (r.map (· + y)))) := by
  obtain ⟨r', hr', hl, hp⟩ := table_row h hi
  rw [hr] at hr'
  cases hr'
  have hj : (if 1 < res.length then i else 0) = i := by
    split
    · rfl
    · have := h.1; omega
  constructor
  · intro hd
    unfold addTo
    simp only [hp, hj]
    show (if d.length = r.length then _ else _) = _
    rw [if_pos (by omega)]
  · rintro y rfl hp1
    unfold addTo
    simp only [hp, hj]
    show (if _ then _ else _) = _
    rw [if_neg (by simp; omega)]

theorem addTo_get {res res' : List (List ℝ)} {i : Nat} {d : List ℝ} (hl : 1 < res.length ∨ i = 0) (h : addTo res i d = .ok res') :
    res'.length = res.length ∧ ∀ t, t ≠ i → res'[t]? = res[t]? := by
  have hj : (if 1 < res.length then i else 0) = i := by rcases hl with h | h <;> simp [h]
  unfold addTo at h
  simp only [hj] at h
  cases hp : pick res i with
  | error e => rw [hp] at h; cases h
  | ok r =>
    rw [hp] at h
    change (if d.length = r.length then _ else _) = _ at h
    split at h
    · cases h; exact ⟨by simp, fun t ht => by simp [List.getElem?_set, Ne.symm ht]⟩
    · split at h
      · cases h; exact ⟨by simp, fun t ht => by simp [List.getElem?_set, Ne.symm ht]⟩
      · cases h

/-! ### wake points at the rotor points -/

/-- Wake points at the rotor points: at each rotor point of the turbine the final value of the delta there, with the ambient value there, is added; nothing
changes elsewhere -/
theorem C88_rotor_points (k : Final) (amb deltas res : List (List ℝ)) (n p i : Nat) (ha : Table amb n p) (hd : Table deltas n p)
    (hr : Table res n p) (hi : i < n) :
    ∃ res', evaluate (fun d i => rotorPoints k amb d i) deltas res i = .ok res' ∧ Table res' n p ∧
      (∀ t, t ≠ i → res'[t]? = res[t]?) ∧
      ∀ q, q < p → (res'.getD i []).getD q 0 =
        (res.getD i []).getD q 0 + fv k ((amb.getD i []).getD q 0) ((deltas.getD i []).getD q 0) := by
  obtain ⟨a, ha1, ha2, ha3⟩ := table_row ha hi
  obtain ⟨d, hd1, hd2, hd3⟩ := table_row hd hi
  obtain ⟨r, hr1, hr2, hr3⟩ := table_row hr hi
  have hz : (List.zipWith (fv k) a d).length = p := by simp [ha2, hd2]
  have hadd := (addTo_ok hr hi (List.zipWith (fv k) a d) r hr1).1 hz
  have hev : evaluate (fun d i => rotorPoints k amb d i) deltas res i = .ok (res.set i (List.zipWith (· + ·) r (List.zipWith (fv k) a d))) := by
    unfold evaluate rotorPoints
    simp only [ha3, hd3]
    change (k.at a d >>= fun d => addTo res i d) = _
    rw [at_same k a d (by omega)]
    exact hadd
  have hil : i < res.length := by rw [hr.1]; exact hi
  refine ⟨_, hev, ⟨by simp [hr.1], ?_⟩, ?_, ?_⟩
  · intro x hx
    rcases List.mem_or_eq_of_mem_set hx with h | h
    · exact hr.2 x h
    · subst h; simp [hr2, ha2, hd2]
  · intro t ht; simp [List.getElem?_set, Ne.symm ht]
  · intro q hq
    simp only [List.getD_eq_getElem?_getD, ha1, hd1, hr1, List.getElem?_set, hil, if_true, Option.getD_some, List.getElem?_zipWith]
    simp [ha2, hd2, hr2, hq]

/-- The wake point at the rotor centre: the final value of the delta there, with the ambient value at each rotor point -/
theorem C88_centre (k : Final) (amb deltas res : List (List ℝ)) (n p i : Nat) (ha : Table amb n p) (hd : Table deltas n 1)
    (hr : Table res n p) (hi : i < n) (hp : 0 < p) :
    ∃ res', evaluate (fun d i => rotorPoints k amb d i) deltas res i = .ok res' ∧ Table res' n p ∧
      (∀ t, t ≠ i → res'[t]? = res[t]?) ∧
      ∀ q, q < p → (res'.getD i []).getD q 0 =
        (res.getD i []).getD q 0 + fv k ((amb.getD i []).getD q 0) ((deltas.getD i []).getD 0 0) := by
  by_cases h1 : p = 1
  · subst h1
    obtain ⟨res', h1, h2, h3, h4⟩ := C88_rotor_points k amb deltas res n 1 i ha hd hr hi
    refine ⟨res', h1, h2, h3, ?_⟩
    intro q hq
    have : q = 0 := by omega
    subst this
    exact h4 0 hq
  · obtain ⟨a, ha1, ha2, ha3⟩ := table_row ha hi
    obtain ⟨d, hd1, hd2, hd3⟩ := table_row hd hi
    obtain ⟨r, hr1, hr2, hr3⟩ := table_row hr hi
    obtain ⟨y, rfl⟩ := List.length_eq_one_iff.1 hd2
    have hil : i < res.length := by rw [hr.1]; exact hi
    have hri : res[i]'hil = r := by simpa [hil] using hr1
    have hfin := at_one k a y (by omega)
    have hev : ∀ r', (∀ x, k.at a [y] = .ok x → addTo res i x = .ok r') →
        evaluate (fun d i => rotorPoints k amb d i) deltas res i = .ok r' := by
      intro r' h
      unfold evaluate rotorPoints
      simp only [ha3, hd3]
      change (k.at a [y] >>= fun d => addTo res i d) = _
      rw [hfin]
      exact h _ hfin
    cases k with
    | plain g =>
      have hadd := (addTo_ok hr hi [g y] r hr1).2 (g y) rfl h1
      refine ⟨_, hev _ (fun x hx => by cases hx; exact hadd), ⟨by simp [hr.1], ?_⟩, ?_, ?_⟩
      · intro x hx
        rcases List.mem_or_eq_of_mem_set hx with h | h
        · exact hr.2 x h
        · subst h; simp [hr2]
      · intro t ht; simp [List.getElem?_set, Ne.symm ht]
      · intro q hq
        simp [hil, hri, hd1, hr2, hq, fv]
    | withAmb f =>
      have hadd := (addTo_ok hr hi (a.map fun x => f x y) r hr1).1 (by simp [ha2])
      refine ⟨_, hev _ (fun x hx => by rw [hfin] at hx; cases hx; exact hadd), ⟨by simp [hr.1], ?_⟩, ?_, ?_⟩
      · intro x hx
        rcases List.mem_or_eq_of_mem_set hx with h | h
        · exact hr.2 x h
        · subst h; simp [hr2, ha2]
      · intro t ht; simp [List.getElem?_set, Ne.symm ht]
      · intro q hq
        simp [hil, hri, ha1, hd1, hr2, ha2, hq, fv]

/-! ### separate wake points -/

/-- the mean of the final values over the wake points of a turbine: with the mean ambient value, or - for as many wake points as rotor points - with the ambient
value of the rotor point of the same number -/
noncomputable def segMean (k : Final) (rw gw a d : List ℝ) : ℝ :=
  ∑ q ∈ Finset.range gw.length, gw.getD q 0 * fv k (if rw.length = gw.length then a.getD q 0 else wmean rw a) (d.getD q 0)

theorem segregated_ok (k : Final) (rw gw : List ℝ) (amb deltas : List (List ℝ)) (n i : Nat) (ha : Table amb n rw.length)
    (hd : Table deltas n gw.length) (hi : i < n) :
    segregated k rw gw amb deltas i =
      .ok (List.replicate rw.length (segMean k rw gw (amb.getD i []) (deltas.getD i []))) := by
  obtain ⟨a, ha1, ha2, ha3⟩ := table_row ha hi
  obtain ⟨d, hd1, hd2, hd3⟩ := table_row hd hi
  have key : ∀ a' : List ℝ, a'.length = gw.length →
      (∀ q, q < gw.length → a'.getD q 0 = if rw.length = gw.length then a.getD q 0 else wmean rw a) →
      (do let x ← k.at a' d
          let m ← wsum x gw
          pure (List.replicate rw.length m) : Except Err (List ℝ)) =
      .ok (List.replicate rw.length (segMean k rw gw a d)) := by
    intro a' hl hv
    rw [at_same k a' d (by omega)]
    change (wsum _ gw >>= fun m => _) = _
    rw [wsum_eq _ _ (by simp; omega)]
    change Except.ok _ = _
    congr 2
    unfold wmean segMean
    apply Finset.sum_congr rfl
    intro q hq
    have hq' := Finset.mem_range.1 hq
    rw [← hv q hq']
    congr 1
    simp [List.getElem?_zipWith, hq', show q < a'.length by omega, show q < d.length by omega]
  unfold segregated
  simp only [hd1, ha3]
  simp only [List.getD_eq_getElem?_getD, ha1, hd1, Option.getD_some]
  by_cases h : rw.length = gw.length
  · simp only [h, if_true]
    rw [← h]
    exact key a (by omega) (fun q _ => by simp [h])
  · simp only [h, if_false]
    show (wsum a rw >>= fun m => (pure (List.replicate gw.length m) : Except Err (List ℝ)) >>= fun a' =>
      k.at a' d >>= fun x => wsum x gw >>= fun m => pure (List.replicate rw.length m)) = _
    rw [wsum_eq a rw ha2]
    exact key (List.replicate gw.length (wmean rw a)) (by simp) (fun q hq => by simp [h, hq])

/-- Wake points of their own: the weighted mean of the final values is added at each rotor point of the turbine; nothing changes elsewhere -/
theorem C88_segregated (k : Final) (rw gw : List ℝ) (amb deltas res : List (List ℝ)) (n i : Nat) (ha : Table amb n rw.length)
    (hd : Table deltas n gw.length) (hr : Table res n rw.length) (hi : i < n) :
    ∃ res', evaluate (segregated k rw gw amb) deltas res i = .ok res' ∧ Table res' n rw.length ∧
      (∀ t, t ≠ i → res'[t]? = res[t]?) ∧
      ∀ q, q < rw.length → (res'.getD i []).getD q 0 = (res.getD i []).getD q 0 + segMean k rw gw (amb.getD i []) (deltas.getD i []) := by
  obtain ⟨r, hr1, hr2, hr3⟩ := table_row hr hi
  have hil : i < res.length := by rw [hr.1]; exact hi
  have hri : res[i]'hil = r := by simpa [hil] using hr1
  have hs := segregated_ok k rw gw amb deltas n i ha hd hi
  set m := segMean k rw gw (amb.getD i []) (deltas.getD i []) with hm
  have hadd := (addTo_ok hr hi (List.replicate rw.length m) r hr1).1 (by simp)
  have hev : evaluate (segregated k rw gw amb) deltas res i = .ok (res.set i (List.zipWith (· + ·) r (List.replicate rw.length m))) := by
    unfold evaluate
    rw [hs]
    exact hadd
  refine ⟨_, hev, ⟨by simp [hr.1], ?_⟩, ?_, ?_⟩
  · intro x hx
    rcases List.mem_or_eq_of_mem_set hx with h | h
    · exact hr.2 x h
    · subst h; simp [hr2]
  · intro t ht; simp [List.getElem?_set, Ne.symm ht]
  · intro q hq
    simp [hil, hri, hr2, hq]

/-- Homogeneous ambient conditions and weights of sum one: the mean of the wakes over the wake points, however many there are -/
theorem C88_homogeneous (k : Final) (rw gw d : List ℝ) (x : ℝ) (hw : wmean rw (List.replicate rw.length 1) = 1) :
    segMean k rw gw (List.replicate rw.length x) d = ∑ q ∈ Finset.range gw.length, gw.getD q 0 * fv k x (d.getD q 0) := by
  unfold segMean
  apply Finset.sum_congr rfl
  intro q hq
  have hq' := Finset.mem_range.1 hq
  by_cases h : rw.length = gw.length
  · simp [h, hq']
  · have : wmean rw (List.replicate rw.length x) = x := by
      have e : wmean rw (List.replicate rw.length x) = x * wmean rw (List.replicate rw.length 1) := by
        unfold wmean
        rw [Finset.mul_sum]
        apply Finset.sum_congr rfl
        intro p hp
        have := Finset.mem_range.1 hp
        simp [this]; ring
      rw [e, hw, mul_one]
    rw [if_neg h, this]

/-- The wake points are the rotor points: the rotor means of the two ways are equal, if the weights have sum one -/
theorem C88_same_points (k : Final) (w a d r : List ℝ) (ha : a.length = w.length) (hd : d.length = w.length) (hr : r.length = w.length)
    (hw : wmean w (List.replicate w.length 1) = 1) :
    rotorMean w (List.zipWith (· + ·) r (List.zipWith (fv k) a d)) =
      rotorMean w (r.map (· + segMean k w w a d)) ∧
    rotorMean w (r.map (· + segMean k w w a d)) = rotorMean w r + segMean k w w a d := by
  have h1 : ∑ p ∈ Finset.range w.length, w.getD p 0 = 1 := by
    rw [← hw]; unfold wmean
    apply Finset.sum_congr rfl
    intro p hp
    have := Finset.mem_range.1 hp
    simp [this]
  have e2 : rotorMean w (r.map (· + segMean k w w a d)) = rotorMean w r + segMean k w w a d := by
    unfold rotorMean
    rw [zip_sum _ _ (by simp [hr]), zip_sum _ _ hr]
    unfold wmean
    have e3 : segMean k w w a d = ∑ p ∈ Finset.range w.length, segMean k w w a d * w.getD p 0 := by
      rw [← Finset.mul_sum, h1, mul_one]
    generalize segMean k w w a d = M at e3 ⊢
    conv_rhs => rw [e3]
    rw [← Finset.sum_add_distrib]
    apply Finset.sum_congr rfl
    intro p hp
    have hp' := Finset.mem_range.1 hp
    simp [show p < r.length by omega, hp']
    ring
  refine ⟨?_, e2⟩
  rw [e2]
  unfold rotorMean
  rw [zip_sum _ _ (by simp [ha, hd, hr]), zip_sum _ _ hr]
  unfold wmean segMean
  rw [← Finset.sum_add_distrib]
  apply Finset.sum_congr rfl
  intro p hp
  have hp' := Finset.mem_range.1 hp
  simp [show p < r.length by omega, show p < a.length by omega, show p < d.length by omega, hp', List.getElem?_zipWith]
  ring

/-- No wake, no change: if final values of zero deltas are zero, then nothing is added -/
theorem C88_no_wake (k : Final) (rw gw a d : List ℝ) (hk : ∀ x, fv k x 0 = 0) (hd : ∀ y ∈ d, y = 0) : segMean k rw gw a d = 0 := by
  unfold segMean
  apply Finset.sum_eq_zero
  intro q _
  have : d.getD q 0 = 0 := by
    rw [List.getD_eq_getElem?_getD]
    cases h : d[q]? with
    | none => rfl
    | some y => exact hd y (List.mem_of_getElem? h)
  rw [this, hk, mul_zero]

/-! ### several wake models -/

/-- The results of several wake models (each with wake points of its own kind) add up at the turbine, whatever their order; other turbines are not touched -/
theorem C88_models_add (ms : List ((List (List ℝ) → Nat → Except Err (List ℝ)) × List (List ℝ))) (adds : List (List ℝ)) (res : List (List ℝ))
    (n p i : Nat) (hr : Table res n p) (hi : i < n)
    (hm : List.Forall₂ (fun m x => m.1 m.2 i = .ok x ∧ x.length = p) ms adds) :
    ∃ res', evaluateAll ms res i = .ok res' ∧ Table res' n p ∧ (∀ t, t ≠ i → res'[t]? = res[t]?) ∧
      ∀ q, q < p → (res'.getD i []).getD q 0 = (res.getD i []).getD q 0 + (adds.map fun x => x.getD q 0).sum := by
  induction hm generalizing res with
  | nil => exact ⟨res, rfl, hr, fun _ _ => rfl, by simp⟩
  | @cons m x ms adds h _ ih =>
    obtain ⟨f, d⟩ := m
    obtain ⟨h1, h2⟩ := h
    obtain ⟨r, hr1, hr2, _⟩ := table_row hr hi
    have hil : i < res.length := by rw [hr.1]; exact hi
    have hri : res[i]'hil = r := by simpa [hil] using hr1
    have hadd := (addTo_ok hr hi x r hr1).1 h2
    have hev : evaluate f d res i = .ok (res.set i (List.zipWith (· + ·) r x)) := by
      unfold evaluate
      simp only at h1
      rw [h1]
      exact hadd
    have ht : Table (res.set i (List.zipWith (· + ·) r x)) n p := by
      refine ⟨by simp [hr.1], ?_⟩
      intro y hy
      rcases List.mem_or_eq_of_mem_set hy with h | h
      · exact hr.2 y h
      · subst h; simp [hr2, h2]
    obtain ⟨res', e1, e2, e3, e4⟩ := ih _ ht
    refine ⟨res', ?_, e2, ?_, ?_⟩
    · rw [evaluateAll, hev]; exact e1
    · intro t ht; rw [e3 t ht]; simp [List.getElem?_set, Ne.symm ht]
    · intro q hq
      rw [e4 q hq]
      simp [hil, hri, hr2, h2, hq]
      ring

/-- and so the order of wake models does not matter -/
theorem C88_models_order (ms ms' : List ((List (List ℝ) → Nat → Except Err (List ℝ)) × List (List ℝ))) (adds adds' : List (List ℝ))
    (res : List (List ℝ)) (n p i : Nat) (hr : Table res n p) (hi : i < n) (hperm : adds.Perm adds')
    (hm : List.Forall₂ (fun m x => m.1 m.2 i = .ok x ∧ x.length = p) ms adds)
    (hm' : List.Forall₂ (fun m x => m.1 m.2 i = .ok x ∧ x.length = p) ms' adds') :
    evaluateAll ms res i = evaluateAll ms' res i := by
  obtain ⟨r, e1, e2, e3, e4⟩ := C88_models_add ms adds res n p i hr hi hm
  obtain ⟨r', f1, f2, f3, f4⟩ := C88_models_add ms' adds' res n p i hr hi hm'
  rw [e1, f1]
  congr 1
  apply List.ext_getElem?
  intro t
  by_cases ht : t = i
  · subst ht
    obtain ⟨a, ha1, ha2, _⟩ := table_row e2 hi
    obtain ⟨b, hb1, hb2, _⟩ := table_row f2 hi
    rw [ha1, hb1]
    congr 1
    apply List.ext_getElem (by omega)
    intro q hq1 hq2
    have h1 := e4 q (by omega)
    have h2 := f4 q (by omega)
    have hs : (adds.map fun x => x.getD q 0).sum = (adds'.map fun x => x.getD q 0).sum := (hperm.map _).sum_eq
    rw [hs, ← h2] at h1
    simpa [ha1, hb1, hq1, hq2] using h1
  · rw [e3 t ht, f3 t ht]

/-! ### the mean over target points (TData.tpoint_mean) -/

/-- The mean over target points is linear, a constant is kept and it lies between the smallest and the largest value, for weights that are not negative and of
sum one -/
theorem C88_tpoint_mean (x w : List ℝ) (h : x.length = w.length) (h0 : ∀ v ∈ w, 0 ≤ v) (h1 : w.sum = 1) :
    ∃ m, tpointMean x w = .ok m ∧ m = ∑ p ∈ Finset.range w.length, w.getD p 0 * x.getD p 0 ∧
      (∀ c, (∀ y ∈ x, y ≤ c) → m ≤ c) ∧ (∀ c, (∀ y ∈ x, c ≤ y) → c ≤ m) := by
  have hs : ∑ p ∈ Finset.range w.length, w.getD p 0 = 1 := by
    rw [← h1]
    clear h h0 h1
    induction w with
    | nil => simp
    | cons a w ih => rw [List.length_cons, Finset.sum_range_succ', List.sum_cons, ← ih]; simp; ring
  refine ⟨_, wsum_eq x w h, rfl, ?_, ?_⟩
  · intro c hc
    have : wmean w x ≤ ∑ p ∈ Finset.range w.length, w.getD p 0 * c := by
      unfold wmean
      apply Finset.sum_le_sum
      intro p hp
      have hp' := Finset.mem_range.1 hp
      have hx : p < x.length := by omega
      simp only [List.getD_eq_getElem?_getD, List.getElem?_eq_getElem hp', List.getElem?_eq_getElem hx, Option.getD_some]
      exact mul_le_mul_of_nonneg_left (hc _ (List.getElem_mem hx)) (h0 _ (List.getElem_mem hp'))
    rw [← Finset.sum_mul, hs, one_mul] at this
    exact this
  · intro c hc
    have : ∑ p ∈ Finset.range w.length, w.getD p 0 * c ≤ wmean w x := by
      unfold wmean
      apply Finset.sum_le_sum
      intro p hp
      have hp' := Finset.mem_range.1 hp
      have hx : p < x.length := by omega
      simp only [List.getD_eq_getElem?_getD, List.getElem?_eq_getElem hp', List.getElem?_eq_getElem hx, Option.getD_some]
      exact mul_le_mul_of_nonneg_left (hc _ (List.getElem_mem hx)) (h0 _ (List.getElem_mem hp'))
    rw [← Finset.sum_mul, hs, one_mul] at this
    exact this

/-! ### what is false of the code -/

/-- False of the code: with as many wake points as rotor points the ambient value of the rotor point of the same number is used, wherever the two are. So the
order in which another rotor lists its points matters: the same points with the same deltas, weights and ambient values, listed in another order, give another
result. Here the delta is a fraction of the ambient value (as for superpositions scaled by the ambient value), ambient 8 and 12, deltas -1/2 and 0. -/
theorem C88_points_paired :
    let k : Final := .withAmb fun a d => a * d
    segregated k [1/2, 1/2] [1/2, 1/2] [[8, 12]] [[-1/2, 0]] 0 = .ok [-2, -2] ∧
    segregated k [1/2, 1/2] [1/2, 1/2] [[8, 12]] [[0, -1/2]] 0 = .ok [-3, -3] := by
  constructor
  · have := segregated_ok (.withAmb fun a d => a * d) [1/2, 1/2] [1/2, 1/2] [[8, 12]] [[-1/2, 0]] 1 0 (by simp [Table]) (by simp [Table]) (by norm_num)
    show segregated (.withAmb fun a d => a * d) _ _ _ _ _ = _
    rw [this]
    simp [segMean, Finset.sum_range_succ, fv, List.replicate]
    norm_num
  · have := segregated_ok (.withAmb fun a d => a * d) [1/2, 1/2] [1/2, 1/2] [[8, 12]] [[0, -1/2]] 1 0 (by simp [Table]) (by simp [Table]) (by norm_num)
    show segregated (.withAmb fun a d => a * d) _ _ _ _ _ = _
    rw [this]
    simp [segMean, Finset.sum_range_succ, fv, List.replicate]
    norm_num

/-- If the numbers of points differ, then the order of the wake points does not matter -/
theorem C88_points_order (k : Final) (rw a : List ℝ) (gd gd' : List (ℝ × ℝ)) (hne : rw.length ≠ gd.length) (hp : gd.Perm gd') :
    segMean k rw (gd.map Prod.fst) a (gd.map Prod.snd) = segMean k rw (gd'.map Prod.fst) a (gd'.map Prod.snd) := by
  have key : ∀ l : List (ℝ × ℝ), rw.length ≠ l.length →
      segMean k rw (l.map Prod.fst) a (l.map Prod.snd) = (l.map fun p => p.1 * fv k (wmean rw a) p.2).sum := by
    intro l hl
    unfold segMean
    simp only [List.length_map, hl, if_false]
    clear hl
    induction l with
    | nil => simp
    | cons b l ih => rw [List.length_cons, Finset.sum_range_succ', List.map_cons, List.map_cons, List.map_cons, List.sum_cons, ← ih]; simp; ring
  rw [key gd hne, key gd' (by rw [← hp.length_eq]; exact hne)]
  exact (hp.map _).sum_eq

/-- the hypotheses are met: two turbines, two rotor points, three wake points -/
example : ∃ res', evaluate (segregated (.plain id) [1/2, 1/2] [1/4, 1/2, 1/4] [[8, 8], [9, 9]]) [[0, 0, 0], [-1, -2, -1]] [[8, 8], [9, 9]] 1 = .ok res' ∧
    res'[0]? = some [8, 8] ∧ (res'.getD 1 []).getD 1 0 = 15/2 := by
  obtain ⟨res', h1, _, h3, h4⟩ := C88_segregated (.plain id) [1/2, 1/2] [1/4, 1/2, 1/4] [[8, 8], [9, 9]] [[0, 0, 0], [-1, -2, -1]] [[8, 8], [9, 9]] 2 1
    (by simp [Table]) (by simp [Table]) (by simp [Table]) (by norm_num)
  refine ⟨res', h1, by rw [h3 0 (by norm_num)]; rfl, ?_⟩
  rw [h4 1 (by simp)]
  simp [segMean, Finset.sum_range_succ, fv]
  norm_num

end Foxes.Props.FinalWakes
