import Verif.Model.Sequential
import Mathlib.Data.List.Nodup
import Mathlib.Tactic.ByContra
/-
C19: iteration of the Sequential algorithm.
-/
namespace Foxes.Props.Sequential
open Foxes.Sequential

variable {σ R L : Type} [DecidableEq L]

/-- Specification: results of the states `k, k+1, …` (`n` of them) when run one after the other, starting with memory `m`;
`none` if one of them fails. -/
def inOrder (step : Nat → σ → Option (R × σ)) : Nat → Nat → σ → Option (List R × σ)
  | _, 0, m => some ([], m)
  | k, n + 1, m =>
      match step k m with
      | none => none
      | some (r, m') => (inOrder step (k + 1) n m').map fun p => (r :: p.1, p.2)

omit [DecidableEq L] in
theorem inOrder_length (step : Nat → σ → Option (R × σ)) : ∀ (n k : Nat) (m : σ) rs m',
    inOrder step k n m = some (rs, m') → rs.length = n := by
  intro n
  induction n with
  | zero => intro k m rs m' h; simp only [inOrder, Option.some.injEq, Prod.mk.injEq] at h; rw [← h.1]; rfl
  | succ n ih =>
    intro k m rs m' h
    simp only [inOrder] at h
    split at h
    · cases h
    · rename_i r m1 _
      cases hx : inOrder step (k + 1) n m1 with
      | none => rw [hx] at h; cases h
      | some p =>
        rw [hx] at h
        simp only [Option.map_some, Option.some.injEq, Prod.mk.injEq] at h
        rw [← h.1, List.length_cons, ih (k + 1) m1 p.1 p.2 (by rw [hx])]

omit [DecidableEq L] in
/-- The rows of the results are those of the states, unless the states were known to be one when the algorithm was constructed. -/
theorem rows_eq (S : Setup σ R L) (h1 : S.size0 ≠ some 1) : S.rows = S.labels.map some := by simp [Setup.rows, h1]

omit [DecidableEq L] in
theorem rows_length (S : Setup σ R L) (h1 : S.size0 ≠ some 1) : S.rows.length = S.labels.length := by simp [rows_eq S h1]

omit [DecidableEq L] in
theorem rows_nodup (S : Setup σ R L) (h1 : S.size0 ≠ some 1) : S.rows.Nodup ↔ S.labels.Nodup := by
  rw [rows_eq S h1]; exact List.nodup_map_iff (fun _ _ h => Option.some.inj h)

theorem store_ok (S : Setup σ R L) (hl : S.labels.Nodup) (h1 : S.size0 ≠ some 1) (k : Nat) (hlt : k < S.labels.length) (r : R) (res : List R) :
    store S k r res = .ok (res.set k r) := by
  have hm : some S.labels[k] ∈ S.rows := by rw [rows_eq S h1]; exact List.mem_map_of_mem (List.getElem_mem hlt)
  have hi : S.rows.idxOf (some S.labels[k]) = k := by
    have hlt' : k < S.rows.length := by rw [rows_eq S h1]; simpa using hlt
    have he : S.rows[k] = some S.labels[k] := by simp [rows_eq S h1]
    rw [← he]; exact ((rows_nodup S h1).2 hl).idxOf_getElem k hlt'
  simp only [store, List.getElem?_eq_getElem hlt, if_pos ((rows_nodup S h1).2 hl), if_pos hm, hi]

/-- the state in mid-iteration: `k` states done -/
theorem forLoop_from (S : Setup σ R L) (hl : S.labels.Nodup) (h1 : S.size0 ≠ some 1) :
    ∀ (n k : Nat) (m : σ) (pre post : List R) (rs : List R) (m' : σ) (extra : Nat),
      k + n = S.labels.length → pre.length = k → post.length = n → inOrder S.step k n m = some (rs, m') →
      forLoop S (n + extra + 1) ⟨some k, m, pre ++ post⟩ = (rs, some .stopIteration, ⟨none, m', pre ++ rs⟩) := by
  intro n
  induction n with
  | zero =>
    intro k m pre post rs m' extra hk hpre hpost h
    simp only [inOrder, Option.some.injEq, Prod.mk.injEq] at h
    obtain ⟨rfl, rfl⟩ := h
    have : post = [] := List.length_eq_zero_iff.1 hpost
    subst this
    have hlt : ¬ k < S.labels.length := by omega
    simp [forLoop, next, hlt]
  | succ n ih =>
    intro k m pre post rs m' extra hk hpre hpost h
    have hlt : k < S.labels.length := by omega
    simp only [inOrder] at h
    split at h
    · cases h
    · rename_i r m1 hstep
      cases hx : inOrder S.step (k + 1) n m1 with
      | none => rw [hx] at h; cases h
      | some p =>
        rw [hx] at h
        simp only [Option.map_some, Option.some.injEq, Prod.mk.injEq] at h
        obtain ⟨rfl, rfl⟩ := h
        obtain ⟨y, post', rfl⟩ : ∃ y post', post = y :: post' := by
          cases post with
          | nil => simp at hpost
          | cons y p => exact ⟨y, p, rfl⟩
        have hst : store S k r (pre ++ y :: post') = .ok ((pre ++ [r]) ++ post') := by
          rw [store_ok S hl h1 k hlt, List.set_append_right _ _ (by omega), ← hpre]
          simp
        have hnext : next S ⟨some k, m, pre ++ y :: post'⟩ = (.ok r, ⟨some (k + 1), m1, (pre ++ [r]) ++ post'⟩) := by
          simp [next, hlt, hstep, hst]
        have hrec := ih (k + 1) m1 (pre ++ [r]) post' p.1 p.2 extra (by omega) (by simp [hpre]) (by simpa using hpost) hx
        have e : n + 1 + extra + 1 = (n + extra + 1) + 1 := by omega
        rw [e]
        show (match next S _ with | (.error e, s) => _ | (.ok r, s) => _) = _
        rw [hnext]
        simp only [hrec]
        simp

/-- **C19.** If the states' labels are all different and no calculation fails, iterating yields the results of all states, each
once, in order (each calculated after the previous ones); then the iteration stops. The farm results then hold, at
position `i`, the results of state `i`, and the algorithm is ready for a new iteration. -/
theorem C19_all_states_in_order (S : Setup σ R L) (hl : S.labels.Nodup) (h1 : S.size0 ≠ some 1) (s : St σ R) (hs : s.i = none) (rs : List R) (m' : σ)
    (hok : inOrder S.step 0 S.labels.length s.mem = some (rs, m')) (extra : Nat) :
    run S (S.labels.length + 1 + extra) s = (rs, some .stopIteration, ⟨none, m', rs⟩) ∧
    rs.length = S.labels.length := by
  have hlen := inOrder_length S.step _ _ _ _ _ hok
  refine ⟨?_, hlen⟩
  have := forLoop_from S hl h1 S.labels.length 0 s.mem [] (List.replicate S.rows.length S.zero) rs m' extra
    (by omega) rfl (by simp [rows_length S h1]) hok
  rw [List.nil_append, List.nil_append] at this
  rw [show S.labels.length + 1 + extra = S.labels.length + extra + 1 by omega, ← this]
  unfold run iter
  rw [hs]

/-- **C19 (repetition).** For calculations that keep no memory, the `i`-th result is that of state `i`, and a second iteration
gives the same results again. -/
theorem C19_memoryless (S : Setup Unit R L) (hl : S.labels.Nodup) (hone : S.size0 ≠ some 1) (f : Nat → R) (hf : ∀ k, S.step k () = some (f k, ()))
    (s : St Unit R) (hs : s.i = none) :
    let o := run S (S.labels.length + 1) s
    o.1 = (List.range S.labels.length).map f ∧ o.2.2.res = o.1 ∧
    run S (S.labels.length + 1) o.2.2 = o := by
  have hin : ∀ n k, inOrder S.step k n () = some ((List.range' k n).map f, ()) := by
    intro n
    induction n with
    | zero => intro k; rfl
    | succ n ih => intro k; simp [inOrder, hf, ih, List.range'_succ]
  have h1 := (C19_all_states_in_order S hl hone s hs _ () (hin S.labels.length 0) 0).1
  have h2 := (C19_all_states_in_order S hl hone ⟨none, (), (List.range S.labels.length).map f⟩ rfl _ () (hin S.labels.length 0) 0).1
  rw [Nat.add_zero] at h1 h2
  simp only [h1, List.range_eq_range']
  refine ⟨trivial, trivial, ?_⟩
  simpa [List.range_eq_range'] using h2

/-- the first `n` of the remaining states -/
theorem forLoop_break (S : Setup σ R L) (hl : S.labels.Nodup) (h1 : S.size0 ≠ some 1) :
    ∀ (n k : Nat) (m : σ) (pre post : List R) (rs : List R) (m' : σ),
      k + n ≤ S.labels.length → pre.length = k → n ≤ post.length → inOrder S.step k n m = some (rs, m') →
      forLoop S n ⟨some k, m, pre ++ post⟩ = (rs, none, ⟨some (k + n), m', (pre ++ rs) ++ post.drop n⟩) := by
  intro n
  induction n with
  | zero =>
    intro k m pre post rs m' hk hpre hpost h
    simp only [inOrder, Option.some.injEq, Prod.mk.injEq] at h
    obtain ⟨rfl, rfl⟩ := h
    simp [forLoop]
  | succ n ih =>
    intro k m pre post rs m' hk hpre hpost h
    have hlt : k < S.labels.length := by omega
    simp only [inOrder] at h
    split at h
    · cases h
    · rename_i r m1 hstep
      cases hx : inOrder S.step (k + 1) n m1 with
      | none => rw [hx] at h; cases h
      | some p =>
        rw [hx] at h
        simp only [Option.map_some, Option.some.injEq, Prod.mk.injEq] at h
        obtain ⟨rfl, rfl⟩ := h
        obtain ⟨y, post', rfl⟩ : ∃ y post', post = y :: post' := by
          cases post with
          | nil => simp at hpost
          | cons y p => exact ⟨y, p, rfl⟩
        have hst : store S k r (pre ++ y :: post') = .ok ((pre ++ [r]) ++ post') := by
          rw [store_ok S hl h1 k hlt, List.set_append_right _ _ (by omega), ← hpre]
          simp
        have hnext : next S ⟨some k, m, pre ++ y :: post'⟩ = (.ok r, ⟨some (k + 1), m1, (pre ++ [r]) ++ post'⟩) := by
          simp [next, hlt, hstep, hst]
        have hrec := ih (k + 1) m1 (pre ++ [r]) post' p.1 p.2 (by omega) (by simp [hpre]) (by simpa using hpost) hx
        show (match next S _ with | (.error e, s) => _ | (.ok r, s) => _) = _
        rw [hnext]
        simp only [hrec]
        simp [Nat.add_comm, Nat.add_left_comm]

/-- **C19 (finding: interrupted iterations).** If the caller leaves the loop after `n` of the states, the next `for` loop does not
start again: it yields the results of the remaining states only (and then stops, with all results stored). -/
theorem C19_resumes_after_break (S : Setup σ R L) (hl : S.labels.Nodup) (hone : S.size0 ≠ some 1) (s : St σ R) (hs : s.i = none)
    (n rest : Nat) (hn : n + rest = S.labels.length) (rs1 rs2 : List R) (m1 m2 : σ)
    (h1 : inOrder S.step 0 n s.mem = some (rs1, m1)) (h2 : inOrder S.step n rest m1 = some (rs2, m2)) :
    (run S n s).1 = rs1 ∧ run S (rest + 1) (run S n s).2.2 = (rs2, some .stopIteration, ⟨none, m2, rs1 ++ rs2⟩) := by
  have hb := forLoop_break S hl hone n 0 s.mem [] (List.replicate S.rows.length S.zero) rs1 m1 (by omega) rfl
    (by rw [List.length_replicate, rows_length S hone]; omega) h1
  have hr : run S n s = (rs1, none, ⟨some n, m1, rs1 ++ (List.replicate S.rows.length S.zero).drop n⟩) := by
    rw [List.nil_append, List.nil_append, Nat.zero_add] at hb
    rw [← hb]; unfold run iter; rw [hs]
  rw [hr]
  refine ⟨rfl, ?_⟩
  exact forLoop_from S hl hone rest n m1 rs1 _ rs2 m2 0 hn (inOrder_length S.step _ _ _ _ _ h1) (by rw [List.length_drop, List.length_replicate, rows_length S hone]; omega) h2

/-- C19, concrete: three states; the loop is left after one state; a new loop sees only the other two. -/
theorem C19_break_counterexample :
    let S : Setup Unit Nat Nat := ⟨[5, 6, 7], fun k _ => some (10 * k, ()), 0, none⟩
    let o := run S 1 ⟨none, (), []⟩
    o.1 = [0] ∧ (run S 10 o.2.2).1 = [10, 20] := by decide

/-- **C19 (finding: repeated labels).** With two states of the same label the first step already fails. -/
theorem C19_repeated_labels_raise (S : Setup σ R L) (hl : ¬ S.labels.Nodup) (h1 : S.size0 ≠ some 1) (s : St σ R) (hs : s.i = none) (n : Nat)
    (r : R) (m : σ) (h0 : S.step 0 s.mem = some (r, m)) :
    (run S (n + 1) s).1 = [] ∧ (run S (n + 1) s).2.1 = some .indexError := by
  have hpos : 0 < S.labels.length := by
    rcases Nat.eq_zero_or_pos S.labels.length with h | h
    · exact absurd (by rw [List.length_eq_zero_iff.1 h]; exact List.nodup_nil) hl
    · exact h
  have hst : ∀ res, store S 0 r res = .error .indexError := by
    intro res
    simp [store, List.getElem?_eq_getElem hpos, rows_nodup S h1, hl]
  have : forLoop S (n + 1) (iter S s) = ([], some .indexError, { iter S s with mem := m }) := by
    unfold iter
    rw [hs]
    simp [forLoop, next, hpos, h0, hst]
  unfold run
  rw [this]
  exact ⟨rfl, rfl⟩

/-- **C19 (failure).** A state whose calculation raises ends the loop with that error; the iterator stays at this state, so a new
loop tries the same state again. -/
theorem C19_failure_stays (S : Setup σ R L) (k : Nat) (m : σ) (res : List R) (hk : k < S.labels.length)
    (hf : S.step k m = none) (n : Nat) :
    run S (n + 1) ⟨some k, m, res⟩ = ([], some .calcError, ⟨some k, m, res⟩) := by
  simp [run, iter, forLoop, next, hk, hf]

/-- calling `next` on an algorithm that is not iterating (before `iter`, or after the end) does not stop the iteration: it
raises a TypeError -/
theorem C19_next_without_iter (S : Setup σ R L) (s : St σ R) (hs : s.i = none) : next S s = (.error .typeError, s) := by
  unfold next; rw [hs]

/-- The hypotheses of the theorems are met by a history-dependent run over three states. -/
example : inOrder (fun k (m : Nat) => some (m + k, m + k + 1)) 0 3 4 = some ([4, 6, 9], 10) := by decide
example := C19_all_states_in_order (⟨["a", "b", "c"], fun k (m : Nat) => some (m + k, m + k + 1), 0, none⟩ : Setup Nat Nat String)
  (by decide) (by decide) ⟨none, 4, []⟩ rfl [4, 6, 9] 10 (by decide) 0
example := C19_repeated_labels_raise (⟨["a", "a"], fun k (m : Nat) => some (m + k, m + k + 1), 0, none⟩ : Setup Nat Nat String)
  (by decide) (by decide) ⟨none, 4, []⟩ rfl 3 4 5 (by decide)

/-! ### One state, and states of all kinds -/

/-- **C19 (finding: one state).** If the states were known to be one when the algorithm was constructed, the first step fails: the results have a row
without label. -/
theorem C19_one_state_fails (S : Setup σ R L) (h1 : S.size0 = some 1) (hl : S.labels.length = 1) (s : St σ R) (hs : s.i = none) (n : Nat)
    (r : R) (m : σ) (h0 : S.step 0 s.mem = some (r, m)) :
    (run S (n + 1) s).1 = [] ∧ (run S (n + 1) s).2.1 = some .keyError := by
  have hpos : 0 < S.labels.length := by omega
  have hst : ∀ res, store S 0 r res = .error .keyError := by
    intro res
    simp [store, List.getElem?_eq_getElem hpos, Setup.rows, h1]
  have : forLoop S (n + 1) (iter S s) = ([], some .keyError, { iter S s with mem := m }) := by
    unfold iter
    rw [hs]
    simp [forLoop, next, hpos, h0, hst]
  unfold run
  rw [this]
  exact ⟨rfl, rfl⟩

/-- the states at the bottom of one point flows -/
def base : Kind → Kind
  | .onePoint b => base b
  | k => k

omit [DecidableEq L] in
theorem size_base (loaded : Bool) (n : Nat) (k : Kind) : k.size loaded n = (base k).size loaded n := by
  induction k with
  | onePoint b ih => simpa [Kind.size, base] using ih
  | _ => rfl

/-- what a caller sees of a complete loop: an error at construction, or the results and the error that ends the loop (`stopIteration`: none) -/
def outcome (kind : Kind) (loaded : Bool) (labels : List L) (step : Nat → σ → Option (R × σ)) (zero : R) (m : σ) : Except Err (List R × Option Err) :=
  match construct kind loaded labels step zero with
  | .error e => .error e
  | .ok S => .ok ((run S (labels.length + 1) ⟨none, m, []⟩).1, (run S (labels.length + 1) ⟨none, m, []⟩).2.1)

/-- **C19 (all kinds of states).** Let the states have different labels, at least one, and let no calculation fail. The algorithm gives all results in order
for states from tables or fields that have not been used before, whatever their number, and for states of these kinds and scans that have been used and are
more than one. It cannot be constructed for scans and wind resource grids that have not been used before. It fails at the first state for
`SingleStateStates`, and for one state of any kind that has been used before. One point flows are like the states they are based on. -/
theorem C19_kinds (kind : Kind) (loaded : Bool) (labels : List L) (step : Nat → σ → Option (R × σ)) (zero : R) (m m' : σ) (rs : List R)
    (hl : labels.Nodup) (hpos : labels ≠ []) (hs : base kind = .single → labels.length = 1) (hok : inOrder step 0 labels.length m = some (rs, m')) :
    outcome kind loaded labels step zero m =
      if base kind = .late ∧ loaded = false then .error .attributeError
      else if labels.length = 1 ∧ ¬ (base kind = .table ∧ loaded = false) then .ok ([], some .keyError)
      else .ok (rs, some .stopIteration) := by
  have hlen : 0 < labels.length := List.length_pos_iff.2 hpos
  have hgood : ∀ n : Option Nat, n ≠ some 1 → kind.size loaded labels.length = some n → outcome kind loaded labels step zero m = .ok (rs, some .stopIteration) := by
    intro n hn hk
    have := (C19_all_states_in_order ⟨labels, step, zero, n⟩ hl hn ⟨none, m, []⟩ rfl rs m' hok 0).1
    simp only [Nat.add_zero] at this
    simp only [outcome, construct, hk]
    rw [this]
  have hbad : labels.length = 1 → kind.size loaded labels.length = some (some 1) → outcome kind loaded labels step zero m = .ok ([], some .keyError) := by
    intro h1 hk
    have h0 : ∃ r m1, step 0 m = some (r, m1) := by
      rw [h1] at hok
      simp only [inOrder] at hok
      cases h : step 0 m with
      | none => rw [h] at hok; cases hok
      | some p => exact ⟨p.1, p.2, rfl⟩
    obtain ⟨r, m1, h0⟩ := h0
    have := C19_one_state_fails ⟨labels, step, zero, some 1⟩ rfl h1 ⟨none, m, []⟩ rfl labels.length r m1 h0
    simp only [outcome, construct, hk]
    rw [this.1, this.2]
  have hb := size_base loaded labels.length kind
  cases hk : base kind with
  | onePoint b =>
    exfalso
    clear hs hb hgood hbad
    induction kind with
    | onePoint c ih => exact ih (by simpa [base] using hk)
    | _ => simp [base] at hk
  | single =>
    rw [hk] at hb
    have h1 := hs hk
    simp only [Kind.size] at hb
    simp [hbad h1 hb, h1]
  | late =>
    rw [hk] at hb
    cases loaded with
    | false => simp only [Kind.size, Bool.false_eq_true, if_false] at hb; simp [outcome, construct, hb]
    | true =>
      simp only [Kind.size, if_true] at hb
      by_cases h1 : labels.length = 1
      · rw [h1] at hb; simp [hbad h1 (by rw [h1]; exact hb), h1]
      · simp [hgood _ (by simpa using h1) hb, h1]
  | table =>
    rw [hk] at hb
    cases loaded with
    | false => simp only [Kind.size, Bool.false_eq_true, if_false] at hb; simp [hgood none (by simp) hb]
    | true =>
      simp only [Kind.size, if_true] at hb
      by_cases h1 : labels.length = 1
      · rw [h1] at hb; simp [hbad h1 (by rw [h1]; exact hb), h1]
      · simp [hgood _ (by simpa using h1) hb, h1]

/-- concrete: one state from a new table works, a single state does not -/
example : (outcome .table false ["a"] (fun k (m : Nat) => some (m + k, m)) 0 7).toOption = some ([7], some .stopIteration) := by decide
example : (outcome .single false ["a"] (fun k (m : Nat) => some (m + k, m)) 0 7).toOption = some ([], some .keyError) := by decide

end Foxes.Props.Sequential
