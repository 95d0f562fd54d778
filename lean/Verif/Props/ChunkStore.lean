import Verif.Model.ChunkStore
/-
C08: looking up previous chunks. C09: the store under thread schedules.
-/
namespace Foxes.Props.ChunkStore
open Foxes.ChunkStore

variable {D : Type}

/-- Start of the `m`-th states chunk of the partition `css`. -/
def start (css : List Nat) (m : Nat) : Nat := (css.take m).sum

/-- The store holds, for the targets chunk at `t0`, exactly the chunks of the partition `css`
(whatever else it holds, in any insertion order). -/
def HoldsPartition (st : Store D) (t0 : Nat) (css : List Nat) : Prop :=
  (∀ c ∈ st, c.t0 = t0 → ∃ m, ∃ h : m < css.length, c.i0 = start css m ∧ c.nStates = css[m]) ∧
  (∀ m, (h : m < css.length) → ∃ c ∈ st, c.t0 = t0 ∧ c.i0 = start css m ∧ c.nStates = css[m])

theorem start_succ (css : List Nat) (m : Nat) (h : m < css.length) :
    start css (m + 1) = start css m + css[m] := by
  unfold start
  rw [List.take_add_one, List.sum_append, List.getElem?_eq_getElem h]
  simp

theorem start_le (css : List Nat) {a b : Nat} (h : a ≤ b) (hb : b ≤ css.length) : start css a ≤ start css b := by
  induction b with
  | zero => have : a = 0 := by omega
            rw [this]; exact Nat.le_refl _
  | succ b ih =>
    rcases Nat.lt_or_ge a (b + 1) with h1 | h1
    · have := ih (by omega) (by omega)
      rw [start_succ css b (by omega)]; omega
    · have : a = b + 1 := by omega
      rw [this]; exact Nat.le_refl _

theorem start_lt (css : List Nat) (hpos : ∀ c ∈ css, 1 ≤ c) {a b : Nat} (h : a < b) (hb : b ≤ css.length) :
    start css a < start css b := by
  have h1 := start_le css (a := a + 1) (b := b) h hb
  have h2 := start_succ css a (by omega)
  have h3 := hpos css[a] (List.getElem_mem _)
  omega

theorem start_inj (css : List Nat) (hpos : ∀ c ∈ css, 1 ≤ c) {a b : Nat} (ha : a ≤ css.length)
    (hb : b ≤ css.length) (h : start css a = start css b) : a = b := by
  rcases Nat.lt_trichotomy a b with h1 | h1 | h1
  · have := start_lt css hpos h1 hb; omega
  · exact h1
  · have := start_lt css hpos h1 ha; omega

/-- one step of the walk finds the previous chunk, and fails at the first one -/
theorem find_prev (st : Store D) (t0 : Nat) (css : List Nat) (hpos : ∀ c ∈ css, 1 ≤ c)
    (hst : HoldsPartition st t0 css) (m : Nat) (hm : m ≤ css.length) :
    (m = 0 → st.find? (fun c => decide (c.i0 + c.nStates = start css m ∧ c.t0 = t0)) = none) ∧
    (∀ m', m = m' + 1 → ∃ c, st.find? (fun c => decide (c.i0 + c.nStates = start css m ∧ c.t0 = t0)) = some c ∧
        c.i0 = start css m' ∧ c.nStates = css[m']! ∧ start css m - c.nStates = start css m') := by
  have hall : ∀ c ∈ st, c.i0 + c.nStates = start css m → c.t0 = t0 →
      ∃ a, ∃ h : a < css.length, a + 1 = m ∧ c.i0 = start css a ∧ c.nStates = css[a] := by
    intro c hc he ht
    obtain ⟨a, ha, h1, h2⟩ := hst.1 c hc ht
    refine ⟨a, ha, ?_, h1, h2⟩
    apply start_inj css hpos (by omega) hm
    rw [start_succ css a ha, ← he, h1, h2]
  constructor
  · intro h0
    rw [List.find?_eq_none]
    intro c hc hp
    have hp := of_decide_eq_true hp
    obtain ⟨a, _, h1, _⟩ := hall c hc hp.1 hp.2
    omega
  · intro m' hm'
    have hlt : m' < css.length := by omega
    obtain ⟨c0, hc0, ht, hi, hn⟩ := hst.2 m' hlt
    cases hf : st.find? (fun c => decide (c.i0 + c.nStates = start css m ∧ c.t0 = t0)) with
    | none =>
      rw [List.find?_eq_none] at hf
      have hx := hf c0 hc0
      refine absurd (decide_eq_true ?_) hx
      refine ⟨?_, ht⟩
      rw [hi, hn, hm', start_succ css m' hlt]
    | some c =>
      have hmem := List.mem_of_find?_eq_some hf
      have hp := List.find?_some hf
      have hp := of_decide_eq_true hp
      obtain ⟨a, ha, h1, h2, h3⟩ := hall c hmem hp.1 hp.2
      have hae : a = m' := by omega
      subst hae
      refine ⟨c, rfl, h2, ?_, by omega⟩
      rw [h3, getElem!_pos css a ha]

/-- **C08.** Let the store hold a partition of the states into non-empty chunks. Asking from chunk
`m` for the `k`-th previous chunk gives exactly chunk `m - k` (start and size) if there is one, and
otherwise `None`, or `KeyError` if requested. -/
theorem C08_prev_chunk (st : Store D) (t0 nT : Nat) (css : List Nat) (hpos : ∀ c ∈ css, 1 ≤ c)
    (hst : HoldsPartition st t0 css) (m : Nat) (hm : m < css.length) (k : Nat) (error : Bool) :
    findChunk st (start css m, css[m], t0, nT) k 0 error =
      if k ≤ m then .ok (some (start css (m - k), css[m - k]!, t0, nT))
      else if error then .error .keyError else .ok none := by
  have hne : st.isEmpty = false := by
    obtain ⟨c, hc, _⟩ := hst.2 m hm
    cases st with
    | nil => cases hc
    | cons _ _ => rfl
  have walk : ∀ k m n, m < css.length → (k = 0 → n = css[m]!) → walkStates st t0 k (start css m, n) =
      if k ≤ m then some (start css (m - k), css[m - k]!) else none := by
    intro k
    induction k with
    | zero => intro m n hm hn; simp [walkStates, hn rfl]
    | succ k ih =>
      intro m n hm _
      obtain ⟨h0, h1⟩ := find_prev st t0 css hpos hst m (by omega)
      cases m with
      | zero => rw [walkStates, h0 rfl, if_neg (by omega)]
      | succ m' =>
        obtain ⟨c, hf, hi, hn', hs⟩ := h1 m' rfl
        rw [walkStates, hf]
        simp only
        rw [hs, ih m' c.nStates (by omega) (fun _ => hn')]
        by_cases hk : k ≤ m'
        · rw [if_pos hk, if_pos (by omega), show m' + 1 - (k + 1) = m' - k by omega]
        · rw [if_neg hk, if_neg (by omega)]
  unfold findChunk
  by_cases hk : k = 0
  · subst hk
    simp [getElem!_pos css m hm]
  · have hk' : k > 0 ∨ 0 > 0 := Or.inl (by omega)
    simp only [if_pos hk', hne, walkTargets]
    rw [walk k m css[m] hm (fun h => absurd h hk)]
    by_cases hle : k ≤ m
    · rw [if_pos hle, if_pos hle]; rfl
    · rw [if_neg hle, if_neg hle]; rfl

/-- **C08 (data).** What was last stored for a chunk under a name is what the lookup with no offset
returns, and storing for one chunk or name does not disturb any other chunk or name. -/
theorem C08_get_add (st : Store D) (q q' : Nat × Nat × Nat × Nat) (name name' : String) (d : D) (err : Bool) :
    get (add st q name d) q name 0 0 err = .ok (some d) ∧
    ((q'.1 ≠ q.1 ∨ q'.2.2.1 ≠ q.2.2.1 ∨ name' ≠ name) →
      get (add st q name d) q' name' 0 0 err = get st q' name' 0 0 err) := by
  obtain ⟨i0, n, t0, nT⟩ := q
  obtain ⟨i0', n', t0', nT'⟩ := q'
  let P : Nat → Nat → Chunk D → Bool := fun a b c => decide (c.i0 = a ∧ c.t0 = b)
  let st1 : Store D := if st.any (P i0 t0) then st
    else st ++ [{ i0 := i0, t0 := t0, nStates := n, nTargets := nT, entries := [] }]
  let g : Chunk D → Chunk D := fun c => if c.i0 = i0 ∧ c.t0 = t0 then
    { c with entries := (name, d) :: c.entries.filter (fun e => e.1 ≠ name) } else c
  have hadd : add st (i0, n, t0, nT) name d = st1.map g := rfl
  have hgP : ∀ a b, P a b ∘ g = P a b := by
    intro a b; funext c
    simp only [Function.comp, P, g]
    split <;> rfl
  have hfm : ∀ a b, (st1.map g).find? (P a b) = (st1.find? (P a b)).map g := by
    intro a b
    rw [List.find?_map, hgP]
  have hget : ∀ (s : Store D) (a m b mT : Nat) (nm : String),
      get s (a, m, b, mT) nm 0 0 err =
        match (s.find? (P a b)).bind (fun c => c.entries.lookup nm) with
        | some d => .ok (some d)
        | none => if err then .error .keyError else .ok none := by
    intro s a m b mT nm
    have hf : findChunk s (a, m, b, mT) 0 0 err = .ok (some (a, m, b, mT)) := by
      unfold findChunk
      simp only [if_neg (show ¬(0 > 0 ∨ 0 > 0) by omega)]
    unfold ChunkStore.get
    rw [hf]
    rfl
  have hexists : ∃ c, st1.find? (P i0 t0) = some c ∧ c.i0 = i0 ∧ c.t0 = t0 := by
    have hany : ∃ c ∈ st1, P i0 t0 c = true := by
      simp only [st1]
      split
      · rename_i h; simpa using h
      · exact ⟨_, List.mem_append_right _ (List.mem_singleton.2 rfl), by simp [P]⟩
    obtain ⟨c, hc, hp⟩ := hany
    cases hf : st1.find? (P i0 t0) with
    | none => rw [List.find?_eq_none] at hf; exact absurd hp (hf c hc)
    | some c' =>
      have := List.find?_some hf
      have := of_decide_eq_true this
      exact ⟨c', rfl, this⟩
  constructor
  · rw [hadd, hget, hfm]
    obtain ⟨c, hc, h1, h2⟩ := hexists
    rw [hc]
    simp [g, h1, h2, List.lookup_cons]
  · intro hne
    rw [hadd, hget, hget, hfm]
    -- the store before adding, seen at the other key
    by_cases hk : i0' = i0 ∧ t0' = t0
    · obtain ⟨rfl, rfl⟩ := hk
      have hname : name' ≠ name := by
        rcases hne with h | h | h
        · exact absurd rfl h
        · exact absurd rfl h
        · exact h
      obtain ⟨c, hc, h1, h2⟩ := hexists
      rw [hc]
      have hl : (g c).entries.lookup name' = c.entries.lookup name' := by
        simp only [g, h1, h2, and_self, if_true, List.lookup_cons]
        have : (name' == name) = false := by simpa using hname
        rw [this]
        simp only
        generalize c.entries = es
        induction es with
        | nil => rfl
        | cons e es ih =>
          obtain ⟨k, v⟩ := e
          by_cases hkn : k = name
          · have hb : (name' == k) = false := by simp [hkn, hname]
            rw [List.filter_cons_of_neg (by simp [hkn]), ih, List.lookup_cons, hb]
          · rw [List.filter_cons_of_pos (by simp [hkn]), List.lookup_cons, List.lookup_cons, ih]
      simp only [Option.map_some, Option.bind_some, hl]
      -- relate to the old store
      by_cases hany : st.any (P i0' t0') = true
      · have : st1 = st := by simp only [st1, hany, if_true]
        rw [← this, hc]; rfl
      · have hst1 : st1 = st ++ [{ i0 := i0', t0 := t0', nStates := n, nTargets := nT, entries := [] }] := by
          simp only [st1, hany]; rfl
        have hnone : st.find? (P i0' t0') = none := by
          rw [List.find?_eq_none]
          intro x hx hp
          exact hany (List.any_eq_true.2 ⟨x, hx, hp⟩)
        rw [hst1, List.find?_append, hnone] at hc
        have : c.entries = [] := by
          have hc' : c = { i0 := i0', t0 := t0', nStates := n, nTargets := nT, entries := [] } := by
            have hp : P i0' t0' { i0 := i0', t0 := t0', nStates := n, nTargets := nT, entries := ([] : List (String × D)) } = true := by
              simp [P]
            rw [List.find?_cons_of_pos hp] at hc
            simpa using hc.symm
          rw [hc']
        rw [hnone, this]; rfl
    · have h1 : st1.find? (P i0' t0') = st.find? (P i0' t0') := by
        simp only [st1]
        split
        · rfl
        · rw [List.find?_append]
          have : [({ i0 := i0, t0 := t0, nStates := n, nTargets := nT, entries := [] } : Chunk D)].find? (P i0' t0') = none := by
            rw [List.find?_eq_none]
            intro x hx hp
            rw [List.mem_singleton.1 hx] at hp
            have := of_decide_eq_true hp
            exact hk ⟨this.1.symm, this.2.symm⟩
          rw [this, Option.or_none]
      rw [h1]
      cases hf : st.find? (P i0' t0') with
      | none => rfl
      | some c =>
        have h0 : P i0' t0' c = true := List.find?_some hf
        have := of_decide_eq_true h0
        have hg : g c = c := by
          simp only [g]
          rw [if_neg]
          intro h
          exact hk ⟨this.1.symm.trans h.1, this.2.symm.trans h.2⟩
        simp [hg]

/-- three chunks, inserted out of order -/
def exStore : Store Nat :=
  [⟨5, 0, 2, 0, [("a", 7)]⟩, ⟨0, 0, 3, 0, []⟩, ⟨3, 0, 2, 0, [("a", 9)]⟩]

example : HoldsPartition exStore 0 [3, 2, 2] ∧
    findChunk exStore (5, 2, 0, 0) 2 0 true = .ok (some (0, 3, 0, 0)) ∧
    findChunk exStore (5, 2, 0, 0) 3 0 false = .ok none ∧
    get exStore (5, 2, 0, 0) "a" 1 0 true = .ok (some 9) := by
  refine ⟨⟨?_, ?_⟩, by rfl, by rfl, by rfl⟩
  · intro c hc _
    simp only [exStore, List.mem_cons, List.not_mem_nil, or_false] at hc
    rcases hc with rfl | rfl | rfl
    · exact ⟨2, by simp, by simp [start], rfl⟩
    · exact ⟨0, by simp, by simp [start], rfl⟩
    · exact ⟨1, by simp, by simp [start], rfl⟩
  · intro m hm
    match m, hm with
    | 0, _ => exact ⟨_, List.mem_cons_of_mem _ List.mem_cons_self, rfl, rfl, rfl⟩
    | 1, _ => exact ⟨_, List.mem_cons_of_mem _ (List.mem_cons_of_mem _ List.mem_cons_self), rfl, rfl, rfl⟩
    | 2, _ => exact ⟨_, List.mem_cons_self, rfl, rfl, rfl⟩

/-- C08, finding: chunks of a farm calculation have no targets (`n_targets = 0`), so asking for the
previous *target* chunk returns the chunk itself instead of failing. -/
theorem C08_prev_target_of_farm_chunk (st : Store D) (i0 n k : Nat)
    (h : st.find? (fun c => decide (c.i0 = i0 ∧ c.t0 + c.nTargets = 0))
      = some ⟨i0, 0, n, 0, []⟩) :
    findChunk st (i0, n, 0, 0) 0 (k + 1) true = .ok (some (i0, n, 0, 0)) := by
  have hw : ∀ j, walkTargets st i0 j (0, 0) = some (0, 0) := by
    intro j
    induction j with
    | zero => rfl
    | succ j ih => rw [walkTargets, h]; exact ih
  have hne : st.isEmpty = false := by
    cases st with
    | nil => cases h
    | cons _ _ => rfl
  simp [findChunk, hne, hw, walkStates]

/-! ### C09 -/

/-- **C09 (processes).** If every worker has its own algorithm object, no schedule makes a worker
miss the entry it stored, iterative or not. -/
theorem C09_processes_never_fail (iterative : Bool) (sched : List Nat) (w : Nat) :
    (runProcs iterative sched).pc w ≠ .failed := by
  let Good : Procs → Prop := fun t => ∀ w, t.pc w ≠ .failed ∧ (t.pc w = .get → w ∈ (t.own w).heap (t.own w).ptr)
  have hstep : ∀ t, Good t → ∀ x, Good (procStep iterative t x) := by
    intro t ht x w
    obtain ⟨h1, h2⟩ := ht w
    by_cases hw : w = x
    · subst hw
      simp only [procStep, if_true, workerStep]
      cases hpc : t.pc w with
      | get => simp [h2 hpc]
      | failed => exact absurd hpc h1
      | take => cases iterative <;> simp
      | _ => simp
    · simpa [procStep, hw] using ⟨h1, h2⟩
  have hrun : ∀ (l : List Nat) t, Good t → Good (l.foldl (procStep iterative) t) := by
    intro l
    induction l with
    | nil => intro t ht; exact ht
    | cons x l ih => intro t ht; exact ih _ (hstep t ht x)
  exact (hrun sched Procs.init (by intro w; simp [Procs.init]) w).1

/-- **C09 (threads, non-iterative).** With a shared algorithm object but without the final `take` no
schedule makes a worker fail. -/
theorem C09_threads_noniterative_never_fail (sched : List Nat) (w : Nat) :
    (runThreads false sched).pc w ≠ .failed := by
  let Good : Threads → Prop := fun t => ∀ w, t.pc w ≠ .failed ∧
    (t.pc w ≠ .reset → t.sh.ptr = 0) ∧ (t.pc w = .get → w ∈ t.sh.heap 0)
  have hstep : ∀ t, Good t → ∀ x, Good (threadStep false t x) := by
    intro t ht x w
    obtain ⟨x1, x2, x3⟩ := ht x
    obtain ⟨h1, h2, h3⟩ := ht w
    cases hx : t.pc x with
    | failed => exact absurd hx x1
    | reset =>
      simp only [threadStep, hx, workerStep]
      by_cases hw : w = x
      · simp [hw]
      · simp only [hw, if_false]; exact ⟨h1, by simp, h3⟩
    | add =>
      have hp := x2 (by simp [hx])
      simp only [threadStep, hx, workerStep, hp]
      by_cases hw : w = x
      · simp [hw]
      · simp only [hw, if_false, if_true]
        exact ⟨h1, by simp, fun h => List.mem_cons_of_mem _ (h3 h)⟩
    | get =>
      have hp := x2 (by simp [hx])
      have hm := x3 hx
      simp only [threadStep, hx, workerStep, hp, hm, if_true]
      by_cases hw : w = x
      · simp [hw]
      · simp only [hw, if_false]; exact ⟨h1, by simp, h3⟩
    | take =>
      have hp := x2 (by simp [hx])
      simp only [threadStep, hx, workerStep]
      by_cases hw : w = x
      · simp [hw, hp]
      · simp only [hw, if_false]; exact ⟨h1, fun _ => hp, h3⟩
    | done =>
      have hp := x2 (by simp [hx])
      simp only [threadStep, hx, workerStep]
      by_cases hw : w = x
      · simp [hw, hp]
      · simp only [hw, if_false]; exact ⟨h1, fun _ => hp, h3⟩
  have hrun : ∀ (l : List Nat) t, Good t → Good (l.foldl (threadStep false) t) := by
    intro l
    induction l with
    | nil => intro t ht; exact ht
    | cons x l ih => intro t ht; exact ih _ (hstep t ht x)
  exact (hrun sched Threads.init (by intro w; simp [Threads.init]) w).1

example : (runThreads false [0, 1, 1, 0, 0, 1, 0, 1]).pc 1 = .done := by decide

/-- **C09 (finding; the property is false for iterative runs on threads).** Two workers suffice:
worker 0 finishes and takes the shared store away between worker 1's store and its read. -/
theorem C09_threads_iterative_race :
    ∃ sched : List Nat, (∀ w ∈ sched, w < 2) ∧ (runThreads true sched).pc 1 = .failed :=
  ⟨[0, 0, 0, 1, 1, 0, 1], by decide, by decide⟩


/-- **C08 (empty store).** With an empty store a look-up of an earlier chunk ends with an IndexError, also if the caller asked for no error. -/
theorem C08_empty_store (q : Nat × Nat × Nat × Nat) (prevS prevT : Nat) (error : Bool) (h : 0 < prevS ∨ 0 < prevT) :
    findChunk (D := D) [] q prevS prevT error = .error .indexError := by
  obtain ⟨i0, n, t0, nT⟩ := q
  simp [findChunk, h]

example : (0 : Nat) < 1 ∨ (0 : Nat) < 0 := by decide

end Foxes.Props.ChunkStore
