import Verif.Model.SeqPlugins
import Verif.Props.Sequential
/-
C90: the Sequential algorithm with points and plugins.
-/
namespace Foxes.Props.SeqPlugins
open Foxes.SeqPlugins
open Foxes.Sequential (Setup store Err)
open Foxes.Props.Sequential (store_ok rows_length)

variable {σ R P L : Type} [DecidableEq L]

/-! ### Specification -/

/-- the results of one state: farm results and, if there are points, point results -/
def one (S : Full σ R P L) (k : Nat) (m : σ) : Option ((R × Option P) × σ) :=
  match S.step k m with
  | none => none
  | some (r, m) =>
      if S.points then (S.pstep k r m).map fun q => ((r, some q.1), q.2) else some ((r, none), m)

/-- the calls that `n` plugins should see for the results `rs` of the states `k, k + 1, …` -/
def updatesOf (n k : Nat) (rs : List (R × Option P)) : List (Call R P) :=
  (rs.zipIdx k).flatMap fun q => (List.range n).map fun p => .update p q.2 q.1.1 q.1.2

/-! ### Lemmas -/

omit [DecidableEq L] in
theorem updates_ok (S : Full σ R P L) (k : Nat) (r : R) (x : Option P) : ∀ n p, (∀ q, p ≤ q → q < p + n → S.raises q k = false) →
    updates S k r x p n = ((List.range' p n).map (fun q => .update q k r x), none) := by
  intro n
  induction n with
  | zero => intro p _; rfl
  | succ n ih =>
    intro p h
    have h0 := h p (Nat.le_refl _) (by omega)
    simp [updates, h0, ih (p + 1) (fun q h1 h2 => h q (by omega) (by omega)), List.range'_succ]

omit [DecidableEq L] in
theorem updates_raise (S : Full σ R P L) (k : Nat) (r : R) (x : Option P) : ∀ a p n, a < n → (∀ q, p ≤ q → q < p + a → S.raises q k = false) →
    S.raises (p + a) k = true → updates S k r x p n = ((List.range' p a).map (fun q => .update q k r x), some (p + a)) := by
  intro a
  induction a with
  | zero =>
    intro p n hn _ hr
    obtain ⟨n, rfl⟩ : ∃ n', n = n' + 1 := ⟨n - 1, by omega⟩
    simp only [Nat.add_zero] at hr
    simp [updates, hr]
  | succ a ih =>
    intro p n hn h hr
    obtain ⟨n, rfl⟩ : ∃ n', n = n' + 1 := ⟨n - 1, by omega⟩
    have h0 := h p (Nat.le_refl _) (by omega)
    have := ih (p + 1) n (by omega) (fun q h1 h2 => h q (by omega) (by omega)) (by rw [← hr]; congr 1; omega)
    simp [updates, h0, this, List.range'_succ]
    omega

/-- the point results after those of state `k` -/
def setPoints (S : Full σ R P L) (k : Nat) (x : Option P) (px : Option (List P)) : Option (List P) :=
  match x with
  | none => px
  | some y => some ((points0 S px).set k y)

/-- a step without failure, up to the calls of the plugins -/
theorem next_finish (S : Full σ R P L) (hl : S.labels.Nodup) (h1 : S.size0 ≠ some 1) (k c : Nat) (m m1 : σ) (res : List R) (px : Option (List P))
    (calls : List (Call R P)) (r : R) (x : Option P) (hk : k < S.labels.length) (ho : one S k m = some ((r, x), m1)) :
    next S ⟨some k, c, m, res, px, calls⟩ = finish S k r x ⟨some k, k, m1, res.set k r, setPoints S k x px, calls⟩ := by
  unfold one at ho
  cases hs : S.step k m with
  | none => rw [hs] at ho; cases ho
  | some q =>
    obtain ⟨r', m'⟩ := q
    rw [hs] at ho
    have hst := fun r => store_ok S.toSetup hl h1 k hk r res
    by_cases hp : S.points = true
    · simp only [hp, if_true] at ho
      cases hq : S.pstep k r' m' with
      | none => rw [hq] at ho; cases ho
      | some q =>
        rw [hq] at ho
        simp only [Option.map_some, Option.some.injEq, Prod.mk.injEq] at ho
        obtain ⟨⟨rfl, rfl⟩, rfl⟩ := ho
        have hst' : storeP S k q.1 (points0 S px) = .ok ((points0 S px).set k q.1) :=
          store_ok (σ := Unit) ⟨S.labels, fun _ _ => none, S.pzero, S.size0⟩ hl h1 k hk q.1 _
        simp [next, hk, hs, hst, hp, hq, hst', setPoints]
    · simp only [hp, Bool.false_eq_true, if_false, Option.some.injEq, Prod.mk.injEq] at ho
      obtain ⟨⟨rfl, rfl⟩, rfl⟩ := ho
      simp [next, hk, hs, hst, hp, setPoints]

theorem next_ok (S : Full σ R P L) (hl : S.labels.Nodup) (h1 : S.size0 ≠ some 1) (k c : Nat) (m m1 : σ) (res : List R) (px : Option (List P))
    (calls : List (Call R P)) (r : R) (x : Option P) (hk : k < S.labels.length) (ho : one S k m = some ((r, x), m1))
    (hr : ∀ p, p < S.plugins → S.raises p k = false) :
    next S ⟨some k, c, m, res, px, calls⟩ =
      (.ok (r, x), ⟨some (k + 1), k, m1, res.set k r, setPoints S k x px, calls ++ updatesOf S.plugins k [(r, x)]⟩) := by
  rw [next_finish S hl h1 k c m m1 res px calls r x hk ho]
  have hu := updates_ok S k r x S.plugins 0 (fun q _ h => hr q (by omega))
  simp [finish, hu, updatesOf, List.range_eq_range']

omit [DecidableEq L] in
theorem one_points (S : Full σ R P L) (k : Nat) (m m1 : σ) (r : R) (x : Option P) (ho : one S k m = some ((r, x), m1)) :
    if S.points then ∃ y, x = some y else x = none := by
  unfold one at ho
  split at ho
  · cases ho
  · rename_i r' m' _
    by_cases hp : S.points = true
    · simp only [hp, if_true] at ho ⊢
      cases hq : S.pstep k r' m' with
      | none => rw [hq] at ho; cases ho
      | some q =>
        rw [hq] at ho
        simp only [Option.map_some, Option.some.injEq, Prod.mk.injEq] at ho
        exact ⟨q.1, ho.1.2.symm⟩
    · simp only [hp, Bool.false_eq_true, if_false, Option.some.injEq, Prod.mk.injEq] at ho ⊢
      exact ho.1.2.symm

theorem updatesOf_cons (n k : Nat) (q : R × Option P) (rs : List (R × Option P)) :
    updatesOf n k (q :: rs) = updatesOf n k [q] ++ updatesOf n (k + 1) rs := by
  simp [updatesOf, List.zipIdx_cons]

theorem forLoop_from (S : Full σ R P L) (hl : S.labels.Nodup) (h1 : S.size0 ≠ some 1)
    (hr : ∀ p k, p < S.plugins → k < S.labels.length → S.raises p k = false) :
    ∀ (n k c : Nat) (m m' : σ) (pre post : List R) (px : Option (List P)) (ppre ppost : List P) (calls : List (Call R P)) (rs : List (R × Option P))
      (extra : Nat), k + n = S.labels.length → pre.length = k → post.length = n →
      (S.points = true → points0 S px = ppre ++ ppost ∧ ppre.length = k ∧ ppost.length = n) →
      Sequential.inOrder (one S) k n m = some (rs, m') →
      forLoop S (n + extra + 1) ⟨some k, c, m, pre ++ post, px, calls⟩ =
        (rs, some (.base .stopIteration), ⟨none, if n = 0 then c else k + n - 1, m', pre ++ rs.map Prod.fst,
          if S.points = true ∧ n ≠ 0 then some (ppre ++ rs.filterMap Prod.snd) else px,
          calls ++ updatesOf S.plugins k rs ++ (List.range S.plugins).map .finalize⟩) := by
  intro n
  induction n with
  | zero =>
    intro k c m m' pre post px ppre ppost calls rs extra hk hpre hpost hpp h
    simp only [Sequential.inOrder, Option.some.injEq, Prod.mk.injEq] at h
    obtain ⟨rfl, rfl⟩ := h
    obtain rfl : post = [] := List.length_eq_zero_iff.1 hpost
    have hlt : ¬ k < S.labels.length := by omega
    simp [forLoop, next, hlt, updatesOf]
  | succ n ih =>
    intro k c m m' pre post px ppre ppost calls rs extra hk hpre hpost hpp h
    have hlt : k < S.labels.length := by omega
    simp only [Sequential.inOrder] at h
    split at h
    · cases h
    · rename_i q m1 hstep
      obtain ⟨r, x⟩ := q
      cases hx : Sequential.inOrder (one S) (k + 1) n m1 with
      | none => rw [hx] at h; cases h
      | some p =>
        rw [hx] at h
        simp only [Option.map_some, Option.some.injEq, Prod.mk.injEq] at h
        obtain ⟨rfl, rfl⟩ := h
        obtain ⟨y, post', rfl⟩ : ∃ y post', post = y :: post' := by
          cases post with
          | nil => simp at hpost
          | cons y p => exact ⟨y, p, rfl⟩
        have hset : (pre ++ y :: post').set k r = (pre ++ [r]) ++ post' := by
          rw [List.set_append_right _ _ (by omega), ← hpre]; simp
        have hn := next_ok S hl h1 k c m m1 (pre ++ y :: post') px calls r x hlt hstep (fun p hp => hr p k hp hlt)
        rw [hset] at hn
        have hop := one_points S k m m1 r x hstep
        have hpos : n + 1 ≠ 0 := by omega
        have e : n + 1 + extra + 1 = (n + extra + 1) + 1 := by omega
        rw [e]
        show (match next S _ with | (.error e, s) => _ | (.ok r, s) => _) = _
        rw [hn]
        have hc : (if n = 0 then k else k + 1 + n - 1) = k + (n + 1) - 1 := by split <;> omega
        by_cases hp : S.points = true
        · obtain ⟨h2, h3, h4⟩ := hpp hp
          simp only [hp, if_true] at hop
          obtain ⟨x, rfl⟩ := hop
          obtain ⟨z, ppost', rfl⟩ : ∃ z ppost', ppost = z :: ppost' := by
            cases ppost with
            | nil => simp at h4
            | cons y p => exact ⟨y, p, rfl⟩
          have hset2 : (ppre ++ z :: ppost').set k x = (ppre ++ [x]) ++ ppost' := by
            rw [List.set_append_right _ _ (by omega), ← h3]; simp
          have hrec := ih (k + 1) k m1 p.2 (pre ++ [r]) post' (setPoints S k (some x) px) (ppre ++ [x]) ppost'
            (calls ++ updatesOf S.plugins k [(r, some x)]) p.1 extra (by omega) (by simp [hpre]) (by simpa using hpost)
            (fun _ => ⟨by simp only [setPoints, h2, hset2]; rfl, by simp [h3], by simpa using h4⟩) (by rw [hx])
          simp only [hrec, hc, hpos, if_false]
          rw [updatesOf_cons S.plugins k (r, some x) p.1]
          by_cases hz : n = 0
          · subst hz
            have hpn : p.1 = [] := List.length_eq_zero_iff.1 (Sequential.inOrder_length _ _ _ _ _ _ hx)
            have hpn' : ppost' = [] := List.length_eq_zero_iff.1 (by simpa using h4)
            simp [hp, hpn, setPoints, h2, hpn', ← h3, List.append_assoc]
          · simp [hp, hz, List.append_assoc]
        · simp only [hp, Bool.false_eq_true, if_false] at hop
          subst hop
          have hrec := ih (k + 1) k m1 p.2 (pre ++ [r]) post' (setPoints S k none px) [] []
            (calls ++ updatesOf S.plugins k [(r, none)]) p.1 extra (by omega) (by simp [hpre]) (by simpa using hpost)
            (fun h => absurd h hp) (by rw [hx])
          simp only [hrec, hc, hpos, if_false]
          rw [updatesOf_cons S.plugins k (r, none) p.1]
          simp [hp, setPoints, List.append_assoc]

/-! ### Theorems -/

/-- **C90 (complete loops).** If the states have different labels (and are not known to be one in advance) and nothing raises, then a loop that starts afresh yields the
farm and point results of all states in order; afterwards both result tables hold in row `i` those of state `i`; and each plugin has been initialised once, then
called with the number and the results of each state, in order, and then finalised once - the plugins in the order in which the user lists them. -/
theorem C90_complete (S : Full σ R P L) (hl : S.labels.Nodup) (h1 : S.size0 ≠ some 1)
    (hr : ∀ p k, p < S.plugins → k < S.labels.length → S.raises p k = false) (s : Mem σ R P) (hs : s.i = none) (rs : List (R × Option P)) (m' : σ)
    (hok : Sequential.inOrder (one S) 0 S.labels.length s.mem = some (rs, m')) (extra : Nat) :
    let o := run S (S.labels.length + 1 + extra) s
    o.1 = rs ∧ o.2.1 = some (.base .stopIteration) ∧ o.2.2.i = none ∧ o.2.2.res = rs.map Prod.fst ∧
    o.2.2.pres = (if S.points = true ∧ S.labels ≠ [] then some (rs.filterMap Prod.snd) else none) ∧
    o.2.2.calls = s.calls ++ ((List.range S.plugins).map .initialize ++ updatesOf S.plugins 0 rs ++ (List.range S.plugins).map .finalize) := by
  have := forLoop_from S hl h1 hr S.labels.length 0 0 s.mem m' [] (List.replicate S.rows.length S.zero) none [] (List.replicate S.rows.length S.pzero)
    (s.calls ++ (List.range S.plugins).map .initialize) rs extra (by omega) rfl (by simp [rows_length S.toSetup h1])
    (fun _ => ⟨by simp [points0], rfl, by simp [rows_length S.toSetup h1]⟩) hok
  rw [List.nil_append, List.nil_append, List.nil_append] at this
  have e : run S (S.labels.length + 1 + extra) s = forLoop S (S.labels.length + extra + 1) ⟨some 0, 0, s.mem, List.replicate S.rows.length S.zero, none,
      s.calls ++ (List.range S.plugins).map .initialize⟩ := by
    unfold run iter
    rw [hs, show S.labels.length + 1 + extra = S.labels.length + extra + 1 by omega]
  intro o
  have ho : o = _ := e.trans this
  rw [ho]
  simp [List.append_assoc]

/-- what a step that succeeds does -/
theorem next_ok_inv (S : Full σ R P L) (s s' : Mem σ R P) (q : R × Option P) (h : next S s = (.ok q, s')) :
    ∃ k res, s.i = some k ∧ k < S.labels.length ∧ store S.toSetup k q.1 s.res = .ok res ∧ s'.i = some (k + 1) ∧ s'.counter = k ∧ s'.res = res := by
  have hf : ∀ k r x (t : Mem σ R P), finish S k r x t = (.ok q, s') → q.1 = r ∧ s'.i = some (k + 1) ∧ s'.counter = t.counter ∧ s'.res = t.res := by
    intro k r x t ht
    unfold finish at ht
    simp only at ht
    split at ht
    · cases ht
    · simp only [Prod.mk.injEq, Except.ok.injEq] at ht
      obtain ⟨rfl, rfl⟩ := ht
      exact ⟨rfl, rfl, rfl, rfl⟩
  unfold next at h
  split at h
  · cases h
  · rename_i k hk
    split at h
    · rename_i hlt
      simp only at h
      split at h
      · cases h
      · rename_i r m _
        split at h
        · cases h
        · rename_i res hres
          split at h
          · split at h
            · cases h
            · split at h
              · cases h
              · obtain ⟨rfl, h2, h3, h4⟩ := hf _ _ _ _ h
                exact ⟨k, res, hk, hlt, hres, h2, h3, h4⟩
          · obtain ⟨rfl, h2, h3, h4⟩ := hf _ _ _ _ h
            exact ⟨k, res, hk, hlt, hres, h2, h3, h4⟩
    · cases h

/-- two loops, the first left after `a` results -/
theorem forLoop_add (S : Full σ R P L) (b : Nat) : ∀ a (s : Mem σ R P), (forLoop S a s).2.1 = none →
    forLoop S (a + b) s = ((forLoop S a s).1 ++ (forLoop S b (forLoop S a s).2.2).1, (forLoop S b (forLoop S a s).2.2).2) ∧
    (s.i.isSome → (forLoop S a s).2.2.i.isSome) := by
  intro a
  induction a with
  | zero => intro s _; simp [forLoop]
  | succ a ih =>
    intro s h
    rw [show a + 1 + b = (a + b) + 1 by omega]
    cases hn : next S s with
    | mk q s' =>
      cases q with
      | error e => simp [forLoop, hn] at h
      | ok q =>
        have h' : (forLoop S a s').2.1 = none := by simpa [forLoop, hn] using h
        obtain ⟨h2, h3⟩ := ih s' h'
        obtain ⟨k, res, _, _, _, hi, _⟩ := next_ok_inv S s s' q hn
        have hsome := h3 (by rw [hi]; rfl)
        constructor
        · simp [forLoop, hn, h2]
        · intro _
          simpa [forLoop, hn] using hsome

/-- **C90 (interruption is invisible).** Whatever happens - failures, plugins that raise, repeated labels -, if the caller leaves the loop after `a` results and starts a
new loop, then both together yield the same, end the same way and leave the same results, data and calls of plugins as one loop that is not left: in particular plugins are
not initialised again, and not finalised before all states are done. -/
theorem C90_interruption_invisible (S : Full σ R P L) (a b : Nat) (s : Mem σ R P) (h : (run S a s).2.1 = none) :
    run S (a + b) s = ((run S a s).1 ++ (run S b (run S a s).2.2).1, (run S b (run S a s).2.2).2) := by
  obtain ⟨h2, h3⟩ := forLoop_add S b a (iter S s) h
  have hi : (iter S s).i.isSome := by
    unfold iter
    cases hs : s.i with
    | none => rfl
    | some k => simp [hs]
  have h4 := h3 hi
  have hit : iter S (run S a s).2.2 = (run S a s).2.2 := by
    have h5 : (run S a s).2.2.i.isSome := h4
    unfold iter
    cases hs : (run S a s).2.2.i with
    | none => rw [hs] at h5; cases h5
    | some k => rfl
  unfold run at hit ⊢
  rw [h2, hit]

/-- **C90 (no finalisation without the end).** As long as the caller leaves the loop before the end, no plugin is finalised. -/
theorem C90_not_finalized (S : Full σ R P L) (p : Nat) : ∀ a (s : Mem σ R P), (run S a s).2.1 = none → .finalize p ∉ s.calls →
    .finalize p ∉ (run S a s).2.2.calls := by
  have hu : ∀ k r x n q, (.finalize p : Call R P) ∉ (updates S k r x q n).1 := by
    intro k r x n
    induction n with
    | zero => intro q; simp [updates]
    | succ n ih =>
      intro q
      unfold updates
      split
      · simp
      · simp [ih (q + 1)]
  have hf : ∀ k r x (t : Mem σ R P), .finalize p ∉ t.calls → .finalize p ∉ (finish S k r x t).2.calls := by
    intro k r x t ht
    unfold finish
    simp only
    split <;> simp [ht, hu]
  have hn : ∀ (s : Mem σ R P) q s', next S s = (.ok q, s') → .finalize p ∉ s.calls → .finalize p ∉ s'.calls := by
    intro s q s' h hc
    unfold next at h
    split at h
    · cases h
    · split at h
      · simp only at h
        split at h
        · cases h
        · split at h
          · cases h
          · split at h
            · split at h
              · cases h
              · split at h
                · cases h
                · have := congrArg (fun z => z.2.calls) h
                  simp only at this
                  rw [← this]; exact hf _ _ _ _ hc
            · have := congrArg (fun z => z.2.calls) h
              simp only at this
              rw [← this]; exact hf _ _ _ _ hc
      · cases h
  have hl : ∀ a (s : Mem σ R P), (forLoop S a s).2.1 = none → .finalize p ∉ s.calls → .finalize p ∉ (forLoop S a s).2.2.calls := by
    intro a
    induction a with
    | zero => intro s _ hc; simpa [forLoop] using hc
    | succ a ih =>
      intro s h hc
      cases hx : next S s with
      | mk q s' =>
        cases q with
        | error e => simp [forLoop, hx] at h
        | ok q =>
          have h' : (forLoop S a s').2.1 = none := by simpa [forLoop, hx] using h
          simpa [forLoop, hx] using ih s' h' (hn s q s' hx hc)
  intro a s h hc
  refine hl a (iter S s) h ?_
  unfold iter
  cases hs : s.i with
  | none => simp [hc]
  | some k => simpa using hc

/-- **C90 (current results).** Inside the loop, `calc_farm()` gives the farm results of the state that was yielded last. -/
theorem C90_calc_farm (S : Full σ R P L) (hl : S.labels.Nodup) (h1 : S.size0 ≠ some 1) : ∀ (n : Nat) (s : Mem σ R P), s.res.length = S.labels.length →
    (forLoop S (n + 1) s).2.1 = none → calcFarm (forLoop S (n + 1) s).2.2 = .ok ((forLoop S (n + 1) s).1.getLast?.map Prod.fst) := by
  intro n
  induction n with
  | zero =>
    intro s hlen h
    cases hn : next S s with
    | mk q s' =>
      cases q with
      | error e => simp [forLoop, hn] at h
      | ok q =>
        obtain ⟨k, res, _, hlt, hst, hi, hc, hr⟩ := next_ok_inv S s s' q hn
        rw [store_ok S.toSetup hl h1 k hlt q.1 s.res] at hst
        have hst' : s.res.set k q.1 = res := by simpa using hst
        simp [forLoop, hn, calcFarm, hi, hc, hr, ← hst', hlen, hlt]
  | succ n ih =>
    intro s hlen h
    cases hn : next S s with
    | mk q s' =>
      cases q with
      | error e => simp [forLoop, hn] at h
      | ok q =>
        obtain ⟨k, res, _, hlt, hst, hi, hc, hr⟩ := next_ok_inv S s s' q hn
        rw [store_ok S.toSetup hl h1 k hlt q.1 s.res] at hst
        have hst' : s.res.set k q.1 = res := by simpa using hst
        have e : forLoop S (n + 1 + 1) s = (q :: (forLoop S (n + 1) s').1, (forLoop S (n + 1) s').2) := by
          show (match next S s with | (.error e, s) => _ | (.ok r, s) => _) = _
          rw [hn]
        rw [e] at h ⊢
        have := ih s' (by rw [hr, ← hst', List.length_set, hlen]) h
        rw [this]
        cases hx : (forLoop S (n + 1) s').1 with
        | nil =>
          exfalso
          cases hn2 : next S s' with
          | mk q2 s2 =>
            cases q2 with
            | error e => simp [forLoop, hn2] at h
            | ok q2 => simp [forLoop, hn2] at hx
        | cons a l => simp [List.getLast?_cons_cons]

/-- … from a fresh loop on -/
theorem C90_calc_farm_run (S : Full σ R P L) (hl : S.labels.Nodup) (h1 : S.size0 ≠ some 1) (n : Nat) (s : Mem σ R P) (hs : s.i = none)
    (h : (run S (n + 1) s).2.1 = none) : calcFarm (run S (n + 1) s).2.2 = .ok ((run S (n + 1) s).1.getLast?.map Prod.fst) :=
  C90_calc_farm S hl h1 n (iter S s) (by unfold iter; rw [hs]; simp [rows_length S.toSetup h1]) h

/-- **C90 (finding: before the first state).** Outside of a loop `calc_farm()` raises; after `iter()`, before the first state is calculated, it does not, but gives zeros. -/
theorem C90_calc_farm_early (S : Full σ R P L) (h1 : S.size0 ≠ some 1) (hpos : 0 < S.labels.length) (s : Mem σ R P) (hs : s.i = none) :
    calcFarm s = .error .notIterating ∧ calcFarm (iter S s) = .ok (some S.zero) := by
  constructor
  · unfold calcFarm; rw [hs]
  · unfold iter
    rw [hs]
    have : 0 < S.rows.length := by rw [rows_length S.toSetup h1]; exact hpos
    simp [calcFarm, this]

/-- **C90 (failing plugins).** If the update of plugin `p` raises for state `k`, the loop ends with that error; the results of the state are stored, the plugins before `p` have
been called, those after it have not, and the algorithm stays at state `k`. So the next loop calculates state `k` once more and calls the plugins before `p` once more. -/
theorem C90_plugin_raises (S : Full σ R P L) (hl : S.labels.Nodup) (h1 : S.size0 ≠ some 1) (k c : Nat) (m m1 : σ) (res : List R) (px : Option (List P))
    (calls : List (Call R P)) (r : R) (x : Option P) (hk : k < S.labels.length) (ho : one S k m = some ((r, x), m1)) (p : Nat) (hp : p < S.plugins)
    (hr : S.raises p k = true) (hq : ∀ q, q < p → S.raises q k = false) (n : Nat) :
    run S (n + 1) ⟨some k, c, m, res, px, calls⟩ =
      ([], some (.plugin p), ⟨some k, k, m1, res.set k r, setPoints S k x px, calls ++ (List.range p).map fun q => .update q k r x⟩) := by
  have hu := updates_raise S k r x p 0 S.plugins hp (fun q _ h => hq q (by omega)) (by simpa using hr)
  have hn : next S ⟨some k, c, m, res, px, calls⟩ = _ := (next_finish S hl h1 k c m m1 res px calls r x hk ho).trans (by
    simp only [finish, hu]
    rfl)
  simp only [run, iter, forLoop, hn]
  simp [List.range_eq_range']

/-- **C90 (finding: failing points).** If the calculation at the points raises for state `k`, the farm results of this state are stored already and the data that the models
carry from state to state has advanced, but the algorithm stays at state `k`: the next loop runs the farm calculation of state `k` on the advanced data. -/
theorem C90_points_fail (S : Full σ R P L) (hl : S.labels.Nodup) (h1 : S.size0 ≠ some 1) (hp : S.points = true) (k c : Nat) (m m1 : σ) (res : List R)
    (px : Option (List P)) (calls : List (Call R P)) (r : R) (hk : k < S.labels.length) (hs : S.step k m = some (r, m1)) (hf : S.pstep k r m1 = none) (n : Nat) :
    run S (n + 1) ⟨some k, c, m, res, px, calls⟩ = ([], some (.base .calcError), ⟨some k, k, m1, res.set k r, px, calls⟩) := by
  have hst := store_ok S.toSetup hl h1 k hk r res
  simp [run, iter, forLoop, next, hk, hs, hst, hp, hf]

/-! ### Concrete cases -/

/-- two states, points, two plugins; memory counts the calculations -/
def demo (raises : Nat → Nat → Bool) : Full Nat Nat Nat String :=
  { labels := ["a", "b"], step := fun k m => some (10 * k + m, m + 1), zero := 0, size0 := none, points := true,
    pstep := fun _ r m => some (r + 100, m + 1), pzero := 0, plugins := 2, raises := raises }

example : Sequential.inOrder (one (demo fun _ _ => false)) 0 2 5 = some ([(5, some 105), (17, some 117)], 9) := by decide
example := C90_complete (demo fun _ _ => false) (by decide) (by decide) (fun _ _ _ _ => rfl) ⟨none, 0, 5, [], none, []⟩ rfl
  [(5, some 105), (17, some 117)] 9 (by decide) 0
example : (run (demo fun _ _ => false) 1 ⟨none, 0, 5, [], none, []⟩).2.1 = none := by decide

/-- the second plugin raises at the second state: with two attempts the first plugin is called three times, the second once -/
theorem C90_plugin_called_twice :
    let S := demo fun p k => p == 1 && k == 1
    let o := run S 9 (run S 9 ⟨none, 0, 5, [], none, []⟩).2.2
    o.2.2.calls = [.initialize 0, .initialize 1, .update 0 0 5 (some 105), .update 1 0 5 (some 105), .update 0 1 17 (some 117),
      .update 0 1 19 (some 119)] := by decide

end Foxes.Props.SeqPlugins
