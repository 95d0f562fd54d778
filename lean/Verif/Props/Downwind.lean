import Verif.Proof.Downwind
import Mathlib.Data.List.Perm.Basic
import Mathlib.Data.List.Nodup
import Mathlib.Data.List.Range
/-
C10, C11: changing to downwind order and back. C12: who feels whose wake. C14: numbering.
C16: the iterative sweeps and the downwind loop.
-/
namespace Foxes.Props.Downwind
open Foxes.Downwind

variable {α P S A R : Type}

/-! ### C10, C11 -/

/-- `o 0, ..., o (n-1)` is a permutation of the turbine indices. -/
def IsOrder (n : Nat) (o : Nat → Nat) : Prop := ((List.range n).map o).Perm (List.range n)

theorem IsOrder.lt {n : Nat} {o : Nat → Nat} (h : IsOrder n o) {t : Nat} (ht : t < n) : o t < n := by
  have : o t ∈ (List.range n).map o := List.mem_map.2 ⟨t, List.mem_range.2 ht, rfl⟩
  exact List.mem_range.1 (h.mem_iff.1 this)

theorem IsOrder.inj {n : Nat} {o : Nat → Nat} (h : IsOrder n o) {s t : Nat} (hs : s < n) (ht : t < n)
    (he : o s = o t) : s = t := by
  have hn : ((List.range n).map o).Nodup := h.nodup_iff.2 List.nodup_range
  exact List.inj_on_of_nodup_map hn (List.mem_range.2 hs) (List.mem_range.2 ht) he

theorem IsOrder.surj {n : Nat} {o : Nat → Nat} (h : IsOrder n o) {j : Nat} (hj : j < n) : ∃ t, t < n ∧ o t = j := by
  obtain ⟨t, ht, e⟩ := List.mem_map.1 (h.mem_iff.2 (List.mem_range.2 hj))
  exact ⟨t, List.mem_range.1 ht, e⟩

theorem scatterInv_left {n : Nat} {order : Arr Nat} {s : Nat} (h : IsOrder n (order s)) {t : Nat} (ht : t < n) :
    scatterInv n order s (order s t) = t := by
  have key : ∀ k, t < k → k ≤ n →
      (List.range k).foldl (fun inv t => upd inv (order s t) t) (fun _ => 0) (order s t) = t := by
    intro k
    induction k with
    | zero => intro h; omega
    | succ k ih =>
      intro hk hn
      rw [List.range_succ, List.foldl_append]
      simp only [List.foldl_cons, List.foldl_nil]
      by_cases hkt : t = k
      · rw [hkt, upd_same]
      · rw [upd_ne, ih (by omega) (by omega)]
        intro he
        exact hkt (h.inj ht (by omega) he)
  exact key n ht (Nat.le_refl _)

theorem scatterInv_right {n : Nat} {order : Arr Nat} {s : Nat} (h : IsOrder n (order s)) {t : Nat} (ht : t < n) :
    scatterInv n order s t < n ∧ order s (scatterInv n order s t) = t := by
  obtain ⟨p, hp, he⟩ := h.surj ht
  rw [← he, scatterInv_left h hp]
  exact ⟨hp, rfl⟩

theorem anyNe_false {ne : α → α → Bool} (hne : ∀ x y, ne x y = false → x = y) {nS nT : Nat} {a : Arr α}
    (h : anyNe ne nS nT a = false) {s t : Nat} (hs : s < nS) (ht : t < nT) : a s t = a 0 0 := by
  simp only [anyNe, List.any_eq_false, List.mem_range, Bool.not_eq_true] at h
  exact hne _ _ (h s hs t ht)

/-- **C10 (there).** Column `p` of a variable in downwind order belongs to turbine `order[s, p]`, also
if the reordering is skipped because all entries are equal. `ne` is the array's `!=`; NaN may
differ from itself. -/
theorem C10_to_downwind (ne : α → α → Bool) (hne : ∀ x y, ne x y = false → x = y) (nS nT : Nat)
    (order : Arr Nat) (hord : ∀ s, s < nS → IsOrder nT (order s)) (a : Arr α) (s p : Nat) (hs : s < nS) (hp : p < nT) :
    toDownwind ne nS nT order a s p = a s (order s p) := by
  unfold toDownwind
  cases h : anyNe ne nS nT a with
  | true => simp [gather]
  | false =>
    simp only [Bool.false_eq_true, if_false]
    rw [anyNe_false hne h hs hp, anyNe_false hne h hs ((hord s hs).lt hp)]

/-- **C10 (and back).** If column `p` of a result in downwind order belongs to turbine `order[s, p]`,
then column `t` of the reported result belongs to turbine `t`. -/
theorem C10_back_to_farm_order (ne : α → α → Bool) (hne : ∀ x y, ne x y = false → x = y) (nS nT : Nat)
    (order : Arr Nat) (hord : ∀ s, s < nS → IsOrder nT (order s)) (val out : Arr α)
    (hout : ∀ s p, s < nS → p < nT → out s p = val s (order s p)) (s t : Nat) (hs : s < nS) (ht : t < nT) :
    reorderOut ne nS nT false (scatterInv nT order) out s t = val s t := by
  obtain ⟨h1, h2⟩ := scatterInv_right (hord s hs) ht
  have hg : gather out (scatterInv nT order) s t = val s t := by
    simp only [gather]
    rw [hout s _ hs h1, h2]
  unfold reorderOut
  split
  · exact hg
  · rename_i hc
    rw [← hg, gather]
    by_cases hn : nT > 1
    · have hf : anyNe ne nS nT out = false := by
        cases h : anyNe ne nS nT out
        · rfl
        · exact absurd (by simp [h, hn]) hc
      rw [anyNe_false hne hf hs ht, anyNe_false hne hf hs h1]
    · have e1 : t = 0 := by omega
      have e2 : scatterInv nT order s t = 0 := by omega
      rw [e2, e1]

/-- **C10 (round trip).** Any per-turbine calculation between the two reorderings gives the result of
turbine `t` in column `t`. -/
theorem C10_round_trip {β : Type} (ne : α → α → Bool) (hne : ∀ x y, ne x y = false → x = y)
    (ne' : β → β → Bool) (hne' : ∀ x y, ne' x y = false → x = y) (nS nT : Nat)
    (order : Arr Nat) (hord : ∀ s, s < nS → IsOrder nT (order s)) (a : Arr α) (g : Nat → α → β)
    (s t : Nat) (hs : s < nS) (ht : t < nT) :
    reorderOut ne' nS nT false (scatterInv nT order)
      (fun s p => g s (toDownwind ne nS nT order a s p)) s t = g s (a s t) :=
  C10_back_to_farm_order ne' hne' nS nT order hord (fun s t => g s (a s t)) _
    (fun s p hs hp => by rw [C10_to_downwind ne hne nS nT order hord a s p hs hp]) s t hs ht

/-- A 3-cycle in one state and a swap in the other. -/
def exOrder : Arr Nat := fun s t => if s = 0 then [2, 0, 1].getD t 0 else [1, 0, 2].getD t 0

example : (∀ s, s < 2 → IsOrder 3 (exOrder s)) ∧
    reorderOut (fun x y => x != y) 2 3 false (scatterInv 3 exOrder)
      (fun s p => 10 * toDownwind (fun x y => x != y) 2 3 exOrder (fun s t => 3 * s + t) s p) 1 2 = 50 := by
  refine ⟨?_, by decide⟩
  intro s hs
  unfold IsOrder
  rcases (show s = 0 ∨ s = 1 by omega) with rfl | rfl <;> decide

/-- What the user finds under `ORDER_INV` in the farm results. -/
def reportedInv (nS nT : Nat) (order : Arr Nat) : Arr Nat :=
  reorderOut (fun x y => decide (x ≠ y)) nS nT false (scatterInv nT order) (scatterInv nT order)

/-- What the user finds under `ORDER` in the farm results. -/
def reportedOrder (nS nT : Nat) (order : Arr Nat) : Arr Nat :=
  reorderOut (fun x y => decide (x ≠ y)) nS nT true (scatterInv nT order) order

/-- **C11, refuted except in the trivial case.** The reported `ORDER_INV` inverts the reported `ORDER`
in a state exactly if the order of that state is the identity, because `ORDER_INV` is itself
reordered. -/
theorem C11_reported_order_inv_iff_identity (nS nT : Nat) (order : Arr Nat)
    (hord : ∀ s, s < nS → IsOrder nT (order s)) (s : Nat) (hs : s < nS) :
    (∀ t, t < nT → reportedInv nS nT order s (reportedOrder nS nT order s t) = t) ↔
      ∀ t, t < nT → order s t = t := by
  have hO : reportedOrder nS nT order = order := by simp [reportedOrder, reorderOut]
  have hne : ∀ x y : Nat, decide (x ≠ y) = false → x = y := by intro x y h; simpa using h
  have hI : ∀ t, t < nT → reportedInv nS nT order s t = scatterInv nT order s (scatterInv nT order s t) := by
    intro t ht
    obtain ⟨h1, h2⟩ := scatterInv_right (hord s hs) ht
    unfold reportedInv reorderOut
    split
    · rfl
    · rename_i hc
      by_cases hn : nT > 1
      · have hf : anyNe (fun x y => decide (x ≠ y)) nS nT (scatterInv nT order) = false := by
          cases h : anyNe (fun x y => decide (x ≠ y)) nS nT (scatterInv nT order)
          · rfl
          · exact absurd (by rw [h]; simp [hn]) hc
        rw [anyNe_false hne hf hs ht, ← anyNe_false hne hf hs ht, anyNe_false hne hf hs h1,
          anyNe_false hne hf hs ht]
      · have e1 : t = 0 := by omega
        have e2 : scatterInv nT order s t = 0 := by omega
        subst e1; rw [e2, e2]
  rw [hO]
  constructor
  · intro h t ht
    have h3 := h t ht
    rw [hI _ ((hord s hs).lt ht), scatterInv_left (hord s hs) ht] at h3
    have := (scatterInv_right (hord s hs) ht).2
    rw [h3] at this
    exact this
  · intro h t ht
    rw [h t ht, hI t ht]
    have hi : scatterInv nT order s t = t := by
      have := scatterInv_left (hord s hs) ht
      rwa [h t ht] at this
    rw [hi, hi]

/-- C11, concrete: two states and three turbines; state 0 reports a wrong inverse. -/
theorem C11_counterexample : reportedOrder 2 3 exOrder 0 0 = 2 ∧ reportedInv 2 3 exOrder 0 2 ≠ 0 := by decide

/-- **C11 (what is true, partial).** Before the final reordering the stored inverse is the inverse. -/
theorem C11_internal_inverse_partial (nT : Nat) (order : Arr Nat) (s : Nat) (h : IsOrder nT (order s)) (t : Nat)
    (ht : t < nT) : scatterInv nT order s (order s t) = t ∧ order s (scatterInv nT order s t) = t :=
  ⟨scatterInv_left h ht, (scatterInv_right h ht).2⟩

/-! ### C12 -/

/-- Wake deltas at turbine `j` (downwind positions) from exactly the turbines `0, ..., j-1`, each
added once, with the columns `fd` of these turbines. -/
def upstreamWakes (w : Wake P S A R) (pos : Nat → P) (fd : Nat → S) (j : Nat) : A :=
  (List.range j).foldl (fun acc i => w.add (pos i) (fd i) (pos j) acc) (w.acc0 (pos j))

/-- likewise from exactly the turbines `n-1, ..., j+1` -/
def downstreamWakes (w : Wake P S A R) (pos : Nat → P) (fd : Nat → S) (n j : Nat) : A :=
  ((List.range (n - 1 - j)).map (fun k => n - 1 - k)).foldl
    (fun acc i => w.add (pos i) (fd i) (pos j) acc) (w.acc0 (pos j))

theorem accFrom_eq (w : Wake P S A R) (pos : Nat → P) (fd : Nat → S) (j n k : Nat) :
    accFrom w pos fd j n k = ((List.range k).map (fun k => n - 1 - k)).foldl
      (fun acc i => w.add (pos i) (fd i) (pos j) acc) (w.acc0 (pos j)) := by
  induction k with
  | zero => rfl
  | succ k ih => rw [accFrom, ih, List.range_succ, List.map_append, List.foldl_append]; rfl

/-- **C12.** With one downwind wake model, the first turbine in the order keeps its ambient column and
every other turbine is evaluated with its ambient rotor results plus the finalized wake deltas to
which exactly the turbines before it contributed, once each, with their *final* columns. -/
theorem C12_downwind (c : Farm P S R) (w : Wake P S A R) (hw : w.down = true) (pos : Nat → P) (n : Nat) :
    ∃ fd, farmWakes c [w] pos n = .ok fd ∧ fd 0 = c.init (pos 0) ∧
      ∀ j, 0 < j → j < n →
        fd j = c.eval (pos j)
          (c.plus (c.amb (pos j)) (w.fin (pos j) (c.amb (pos j)) (upstreamWakes w pos fd j)))
          (c.init (pos j)) := by
  have h := invDown_fold c w pos n (fun j => c.init (pos j)) (fun j => c.amb (pos j)) n (Nat.le_refl _)
  refine ⟨_, ?_, h.zero.1, ?_⟩
  · simp [farmWakes, passes, pass, hw]; rfl
  · intro j h0 hj
    obtain ⟨h1, h2⟩ := h.lt j hj h0
    rw [h2, h1]; rfl

/-- **C12 (upwind models).** The mirrored statement for a wake model that acts upwind (induction). -/
theorem C12_upwind (c : Farm P S R) (w : Wake P S A R) (hw : w.down = false) (pos : Nat → P) (n : Nat) :
    ∃ fd, farmWakes c [w] pos n = .ok fd ∧ fd (n - 1) = c.init (pos (n - 1)) ∧
      ∀ j, j + 1 < n →
        fd j = c.eval (pos j)
          (c.plus (c.amb (pos j)) (w.fin (pos j) (c.amb (pos j)) (downstreamWakes w pos fd n j)))
          (c.init (pos j)) := by
  have h := invUp_fold c w pos n (fun j => c.init (pos j)) (fun j => c.amb (pos j))
  refine ⟨_, ?_, h.last.1, ?_⟩
  · simp [farmWakes, passes, pass, hw]; rfl
  · intro j hj
    obtain ⟨h1, h2⟩ := h.ge j (by omega) hj
    rw [h2, h1, accFrom_eq]; rfl

/-- **C12 (several models, partial).** With several downwind wake models, run one after the other,
there is a sequence of intermediate farm data, the ambient ones first and the result last; in the
pass of a model every turbine but the first is evaluated with all deltas accumulated so far plus that
model's deltas, to which exactly the turbines before it contributed with their columns *of this
pass*. Missing from the full property: contributions of earlier models are not updated, see
`C12_two_models_not_final`. -/
theorem C12_several_models_partial (c : Farm P S R) (ws : List (Wake P S A R)) (hws : ∀ w ∈ ws, w.down = true)
    (pos : Nat → P) (n : Nat) :
    ∃ (fds : Nat → Nat → S) (wr : Nat → Nat → R),
      farmWakes c ws pos n = .ok (fds ws.length) ∧
      (∀ j, fds 0 j = c.init (pos j)) ∧ (∀ j, wr 0 j = c.amb (pos j)) ∧
      ∀ k, (hk : k < ws.length) →
        fds (k + 1) 0 = fds k 0 ∧ wr (k + 1) 0 = wr k 0 ∧
        ∀ j, 0 < j → j < n →
          wr (k + 1) j = c.plus (wr k j)
            (ws[k].fin (pos j) (c.amb (pos j)) (upstreamWakes ws[k] pos (fds (k + 1)) j)) ∧
          fds (k + 1) j = c.eval (pos j) (wr (k + 1) j) (fds k j) := by
  have gen : ∀ (ws : List (Wake P S A R)), (∀ w ∈ ws, w.down = true) → ∀ (sd : Bool) (fd0 : Nat → S) (wr0 : Nat → R),
      ∃ (fds : Nat → Nat → S) (wr : Nat → Nat → R),
      passes c pos n ws sd false fd0 wr0 = .ok (fds ws.length, wr ws.length) ∧
      (fds 0 = fd0) ∧ (wr 0 = wr0) ∧
      ∀ k, (hk : k < ws.length) →
        fds (k + 1) 0 = fds k 0 ∧ wr (k + 1) 0 = wr k 0 ∧
        ∀ j, 0 < j → j < n →
          wr (k + 1) j = c.plus (wr k j)
            (ws[k].fin (pos j) (c.amb (pos j)) (upstreamWakes ws[k] pos (fds (k + 1)) j)) ∧
          fds (k + 1) j = c.eval (pos j) (wr (k + 1) j) (fds k j) := by
    intro ws
    induction ws with
    | nil =>
      intro _ sd fd0 wr0
      exact ⟨fun _ => fd0, fun _ => wr0, rfl, rfl, rfl, by intro k hk; simp at hk⟩
    | cons w ws ih =>
      intro hws sd fd0 wr0
      have hw : w.down = true := hws w List.mem_cons_self
      have h := invDown_fold c w pos n fd0 wr0 n (Nat.le_refl _)
      obtain ⟨fds, wr, h1, h2, h3, h4⟩ := ih (fun w hw => hws w (List.mem_cons_of_mem _ hw)) true
        (pass c w pos n fd0 wr0).fd (pass c w pos n fd0 wr0).wres
      have hp : pass c w pos n fd0 wr0 = (List.range n).foldl (stepDown c w pos n)
          { fd := fd0, wres := wr0, wd := fun j => w.acc0 (pos j) } := by simp [pass, hw]
      refine ⟨fun k => match k with | 0 => fd0 | k + 1 => fds k, fun k => match k with | 0 => wr0 | k + 1 => wr k,
        ?_, rfl, rfl, ?_⟩
      · simp only [passes, hw, Bool.or_true, Bool.not_true, Bool.or_false, Bool.and_false, Bool.false_eq_true,
          if_false, List.length_cons]
        exact h1
      · intro k hk
        cases k with
        | zero =>
          simp only [h2, h3, hp, List.getElem_cons_zero]
          refine ⟨h.zero.1, h.zero.2, ?_⟩
          intro j h0 hj
          exact h.lt j hj h0
        | succ k =>
          have := h4 k (by simpa using hk)
          simpa using this
  obtain ⟨fds, wr, h1, h2, h3, h4⟩ := gen ws hws false (fun j => c.init (pos j)) (fun j => c.amb (pos j))
  exact ⟨fds, wr, by simp [farmWakes, h1, Except.map], fun j => by rw [h2], fun j => by rw [h3], h4⟩

/-- A farm whose column is one number (a wind speed), and a wake model that adds the source's
number to the target's. -/
def exFarm : Farm Nat Int Int := { init := fun _ => 10, amb := fun _ => 10, plus := (· + ·), eval := fun _ r _ => r }
def exWake : Wake Nat Int Int Int :=
  { acc0 := fun _ => 0, add := fun _ s _ a => a - s, fin := fun _ _ a => a, down := true }

example : ∃ fd, farmWakes exFarm [exWake] id 3 = .ok fd ∧ fd 0 = 10 ∧ fd 1 = 0 ∧ fd 2 = 0 :=
  ⟨_, rfl, by decide, by decide, by decide⟩

/-- **C12 (finding: fails for two wake models).** Take the same wake model twice. The contribution of
the second turbine to the third within the first pass was calculated before the second model changed the
second turbine; the final wind speeds do not satisfy the coupled equations. -/
theorem C12_two_models_not_final :
    ∃ fd, farmWakes exFarm [exWake, exWake] id 3 = .ok fd ∧
      fd 2 ≠ exFarm.eval 2 (exFarm.plus (exFarm.plus (exFarm.amb 2) (upstreamWakes exWake id fd 2))
        (upstreamWakes exWake id fd 2)) (exFarm.init 2) := by
  refine ⟨_, rfl, ?_⟩
  decide

/-- **C12 (mixing).** Downwind and upwind models together always raise. -/
theorem C12_mixed_raises (c : Farm P S R) (ws : List (Wake P S A R)) (pos : Nat → P) (n : Nat)
    (hd : ∃ w ∈ ws, w.down = true) (hu : ∃ w ∈ ws, w.down = false) : farmWakes c ws pos n = .error .keyError := by
  have gen : ∀ (ws : List (Wake P S A R)) (sd su : Bool) fd wr, ¬ (sd = true ∧ su = true) →
      (sd = true ∨ ∃ w ∈ ws, w.down = true) → (su = true ∨ ∃ w ∈ ws, w.down = false) →
      passes c pos n ws sd su fd wr = .error .keyError := by
    intro ws
    induction ws with
    | nil =>
      intro sd su fd wr hn h1 h2
      simp at h1 h2
      exact absurd ⟨h1, h2⟩ hn
    | cons w ws ih =>
      intro sd su fd wr hn h1 h2
      simp only [passes]
      split
      · rfl
      · rename_i hc
        apply ih
        · simpa using hc
        · rcases h1 with h1 | ⟨x, hx, hxd⟩
          · left; simp [h1]
          · rcases List.mem_cons.1 hx with rfl | hx
            · left; simp [hxd]
            · right; exact ⟨x, hx, hxd⟩
        · rcases h2 with h1 | ⟨x, hx, hxd⟩
          · left; simp [h1]
          · rcases List.mem_cons.1 hx with rfl | hx
            · left; simp [hxd]
            · right; exact ⟨x, hx, hxd⟩
  unfold farmWakes
  rw [gen ws false false _ _ (by simp) (Or.inr hd) (Or.inr hu)]
  rfl

example : farmWakes exFarm [exWake, { exWake with down := false }] id 3 = .error .keyError := by rfl

end Foxes.Props.Downwind
