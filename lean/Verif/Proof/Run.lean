import Verif.Model.Run
import Verif.Proof.Chunks
import Mathlib.Data.List.Basic
import Mathlib.Data.List.Nodup
/- Helper lemmas for `Verif.Props.Run`. -/
namespace Foxes.Run
open Foxes.Chunks

variable {S T R α β : Type}

theorem slice_append (xs : List α) {a b c : Nat} (h1 : a ≤ b) (h2 : b ≤ c) :
    slice (a, b) xs ++ slice (b, c) xs = slice (a, c) xs := by
  unfold slice
  simp only
  have e1 : c - a = (b - a) + (c - b) := by omega
  rw [e1, List.take_add, List.drop_drop, show a + (b - a) = b by omega]

theorem slice_full (xs : List α) : slice (0, xs.length) xs = xs := by
  simp [slice]

theorem slice_length (xs : List α) (a b : Nat) (h : b ≤ xs.length) :
    (slice (a, b) xs).length = b - a := by
  simp [slice]; omega

theorem map_slice (f : α → β) (s : Span) (xs : List α) : slice s (xs.map f) = (slice s xs).map f := by
  simp [slice, List.map_take, List.map_drop]

theorem zipWith_slice {γ : Type} (f : α → β → γ) (s : Span) (xs : List α) (ys : List β) :
    slice s (List.zipWith f xs ys) = List.zipWith f (slice s xs) (slice s ys) := by
  simp [slice, List.take_zipWith, List.drop_zipWith]

theorem spans_length (i0 : Nat) (cs : List Nat) : (spans i0 cs).length = cs.length := by
  induction cs generalizing i0 with
  | nil => rfl
  | cons c cs ih => simp [spans, ih]

theorem flatten_spans (xs : List α) (cs : List Nat) (i0 : Nat) :
    ((spans i0 cs).map fun s => slice s xs).flatten = slice (i0, i0 + cs.sum) xs := by
  induction cs generalizing i0 with
  | nil => simp [spans, slice]
  | cons c cs ih =>
    simp only [spans, List.map_cons, List.flatten_cons, ih, List.sum_cons]
    rw [slice_append xs (by omega) (by omega), Nat.add_assoc]

theorem hconcat_spans (m : List (List α)) (cs : List Nat) (hne : cs ≠ []) (t0 : Nat) :
    hconcat ((spans t0 cs).map fun t => m.map (slice t)) = some (m.map (slice (t0, t0 + cs.sum))) := by
  induction cs generalizing t0 with
  | nil => exact absurd rfl hne
  | cons c cs ih =>
    cases cs with
    | nil => simp [spans, hconcat]
    | cons d ds =>
      have := ih (by simp) (t0 + c)
      simp only [spans, List.map_cons] at this ⊢
      rw [hconcat, this]
      · simp only [List.length_map, if_true]
        congr 1
        rw [List.zipWith_map, List.zipWith_self]
        apply List.map_congr_left
        intro a _
        rw [slice_append a (by omega) (by simp)]
        simp [Nat.add_assoc]
      · simp

/-! lookups -/

theorem lookup_targetJobs (f : Span × Span → β) (i : Nat) (s : Span) (i' j' : Nat) :
    ∀ (ts : List Span) (j : Nat),
      ((targetJobs i s j ts).map fun kb => (kb.1, f kb.2)).lookup (i', j') =
        if i' = i ∧ j ≤ j' then (ts[j' - j]?).map fun t => f (s, t) else none := by
  intro ts
  induction ts with
  | nil => intro j; simp [targetJobs]
  | cons t ts ih =>
    intro j
    simp only [targetJobs, List.map_cons, List.lookup_cons, ih]
    by_cases hi : i' = i
    · subst hi
      by_cases hj : j' = j
      · subst hj; simp
      · have hb : ((i', j') == (i', j)) = false := by simp [hj]
        rw [hb]
        by_cases hle : j ≤ j'
        · have h1 : j' - j = (j' - (j + 1)) + 1 := by omega
          simp only [show j + 1 ≤ j' by omega, hle, and_self, if_true]
          rw [h1, List.getElem?_cons_succ]
        · simp only [show ¬ (j + 1 ≤ j') by omega, hle, and_false, if_false]
    · have hb : ((i', j') == (i, j)) = false := by simp [hi]
      rw [hb]; simp [hi]

theorem lookup_append_none {κ : Type} [BEq κ] (k : κ) (l₁ l₂ : List (κ × β)) (h : l₁.lookup k = none) :
    (l₁ ++ l₂).lookup k = l₂.lookup k := by
  rw [List.lookup_append, h]; rfl

theorem lookup_jobsFrom (f : Span × Span → β) (ts : List Span) (i' j' : Nat) :
    ∀ (ss : List Span) (i : Nat),
      ((jobsFrom ts i ss).map fun kb => (kb.1, f kb.2)).lookup (i', j') =
        if i ≤ i' then (ss[i' - i]?).bind fun s => (ts[j']?).map fun t => f (s, t) else none := by
  intro ss
  induction ss with
  | nil => intro i; simp [jobsFrom]
  | cons s ss ih =>
    intro i
    simp only [jobsFrom, List.map_append, List.lookup_append, lookup_targetJobs, ih]
    by_cases hi : i' = i
    · subst hi
      simp only [Nat.zero_le, and_self, if_true, Nat.sub_zero, Nat.le_refl, Nat.sub_self,
        List.getElem?_cons_zero, Option.bind_some, show ¬ (i' + 1 ≤ i') by omega, if_false,
        Option.or_none]
    · simp only [hi, false_and, if_false, Option.none_or]
      by_cases hle : i ≤ i'
      · simp only [show i + 1 ≤ i' by omega, hle, if_true]
        rw [show i' - i = (i' - (i + 1)) + 1 by omega, List.getElem?_cons_succ]
      · simp only [show ¬ (i + 1 ≤ i') by omega, hle, if_false]

theorem lookup_jobs (f : Span × Span → β) (css cts : List Nat) (i j : Nat) :
    ((jobs css cts).map fun kb => (kb.1, f kb.2)).lookup (i, j) =
      ((spans 0 css)[i]?).bind fun s => ((spans 0 cts)[j]?).map fun t => f (s, t) := by
  rw [jobs, lookup_jobsFrom]; simp

theorem mapM_range_getElem (xs : List α) (g : α → Option β) :
    ((List.range xs.length).mapM fun i => (xs[i]?).bind g) = xs.mapM g := by
  induction xs with
  | nil => rfl
  | cons x xs ih =>
    rw [List.length_cons, List.range_succ_eq_map, List.mapM_cons, List.mapM_map, List.mapM_cons]
    simp only [List.getElem?_cons_zero, Option.bind_some]
    have : (xs.length |> List.range).mapM ((fun i => ((x :: xs)[i]?).bind g) ∘ Nat.succ)
        = (List.range xs.length).mapM fun i => (xs[i]?).bind g := by
      congr 1
    rw [this, ih]

theorem mapM_congr' {xs : List α} {f g : α → Option β} (h : ∀ x ∈ xs, f x = g x) :
    xs.mapM f = xs.mapM g := by
  induction xs with
  | nil => rfl
  | cons x xs ih =>
    rw [List.mapM_cons, List.mapM_cons, h x (by simp), ih (fun y hy => h y (by simp [hy]))]

theorem mapM_some (xs : List α) (g : α → β) : xs.mapM (fun x => some (g x)) = some (xs.map g) := by
  induction xs with
  | nil => rfl
  | cons x xs ih => rw [List.mapM_cons, ih]; rfl

theorem combine_jobs (f : Span × Span → List (List R)) (css cts : List Nat)
    (rows : Span → List (List R))
    (h1 : cts.length = 1 → ∀ s, rows s = f (s, ((spans 0 cts)[0]?).getD (0, 0)))
    (h2 : cts.length ≠ 1 → ∀ s, hconcat ((spans 0 cts).map fun t => f (s, t)) = some (rows s))
    (results : List (Key × List (List R)))
    (hres : ∀ i < css.length, ∀ j < cts.length, results.lookup (i, j) =
      ((jobs css cts).map fun kb => (kb.1, f kb.2)).lookup (i, j)) :
    combine results css.length cts.length = vconcat ((spans 0 css).map rows) := by
  have key : ((List.range css.length).mapM fun i =>
      if cts.length = 1 then results.lookup (i, 0)
      else do
        let tres ← (List.range cts.length).mapM fun j => results.lookup (i, j)
        hconcat tres) = some ((spans 0 css).map rows) := by
    rw [← mapM_some (spans 0 css) rows, ← mapM_range_getElem (spans 0 css), spans_length]
    apply mapM_congr'
    intro i hi
    have hi' : i < css.length := by simpa using hi
    have hsp : i < (spans 0 css).length := by rw [spans_length]; exact hi'
    rw [List.getElem?_eq_getElem hsp, Option.bind_some]
    by_cases hone : cts.length = 1
    · rw [if_pos hone, hres i hi' 0 (by omega), lookup_jobs, List.getElem?_eq_getElem hsp,
        Option.bind_some, h1 hone]
      have h0 : 0 < (spans 0 cts).length := by rw [spans_length]; omega
      rw [List.getElem?_eq_getElem h0]; rfl
    · rw [if_neg hone]
      have : ((List.range cts.length).mapM fun j => results.lookup (i, j)) =
          some ((spans 0 cts).map fun t => f ((spans 0 css)[i], t)) := by
        rw [← mapM_some (spans 0 cts), ← mapM_range_getElem (spans 0 cts), spans_length]
        apply mapM_congr'
        intro j hj
        have hj' : j < cts.length := by simpa using hj
        have htp : j < (spans 0 cts).length := by rw [spans_length]; exact hj'
        rw [hres i hi' j hj', lookup_jobs, List.getElem?_eq_getElem hsp, List.getElem?_eq_getElem htp]
        rfl
      rw [this]
      exact h2 hone _
  rw [combine, key]
  rfl

/-- keys of the job list are pairwise distinct -/
theorem lookup_mem {κ : Type} [BEq κ] [LawfulBEq κ] {l : List (κ × β)} (hn : (l.map Prod.fst).Nodup) (k : κ) (v : β) :
    l.lookup k = some v ↔ (k, v) ∈ l := by
  induction l with
  | nil => simp
  | cons p l ih =>
    obtain ⟨k', v'⟩ := p
    simp only [List.map_cons, List.nodup_cons] at hn
    rw [List.lookup_cons]
    rcases Classical.em (k = k') with hk | hk
    · subst hk
      simp only [beq_self_eq_true, List.mem_cons, Prod.mk.injEq, true_and]
      constructor
      · intro h; cases h; exact .inl rfl
      · rintro (rfl | h)
        · rfl
        · exact absurd (List.mem_map_of_mem (f := Prod.fst) h) hn.1
    · have : (k == k') = false := by simp [hk]
      rw [this]
      simp [ih hn.2, hk]

theorem lookup_perm {κ : Type} [BEq κ] [LawfulBEq κ] {l₁ l₂ : List (κ × β)} (hp : l₁.Perm l₂)
    (hn : (l₁.map Prod.fst).Nodup) (k : κ) : l₁.lookup k = l₂.lookup k := by
  have hn2 : (l₂.map Prod.fst).Nodup := (hp.map Prod.fst).nodup_iff.1 hn
  ext v
  rw [lookup_mem hn, lookup_mem hn2, hp.mem_iff]

theorem mem_keys_targetJobs {i : Nat} {s : Span} {ts : List Span} {j : Nat} {k : Key}
    (h : k ∈ (targetJobs i s j ts).map Prod.fst) : k.1 = i ∧ j ≤ k.2 := by
  induction ts generalizing j with
  | nil => simp [targetJobs] at h
  | cons t ts ih =>
    simp only [targetJobs, List.map_cons, List.mem_cons] at h
    rcases h with rfl | h
    · simp
    · have := ih h; omega

theorem nodup_targetJobs (i : Nat) (s : Span) (ts : List Span) (j : Nat) :
    ((targetJobs i s j ts).map Prod.fst).Nodup := by
  induction ts generalizing j with
  | nil => simp [targetJobs]
  | cons t ts ih =>
    simp only [targetJobs, List.map_cons, List.nodup_cons]
    refine ⟨fun h => ?_, ih _⟩
    have := (mem_keys_targetJobs h).2
    simp only at this; omega

theorem mem_keys_jobsFrom {ts ss : List Span} {i : Nat} {k : Key}
    (h : k ∈ (jobsFrom ts i ss).map Prod.fst) : i ≤ k.1 := by
  induction ss generalizing i with
  | nil => simp [jobsFrom] at h
  | cons s ss ih =>
    simp only [jobsFrom, List.map_append, List.mem_append] at h
    rcases h with h | h
    · exact (mem_keys_targetJobs h).1 ▸ Nat.le_refl _
    · have := ih h; omega

theorem nodup_jobsFrom (ts ss : List Span) (i : Nat) : ((jobsFrom ts i ss).map Prod.fst).Nodup := by
  induction ss generalizing i with
  | nil => simp [jobsFrom]
  | cons s ss ih =>
    simp only [jobsFrom, List.map_append, List.nodup_append]
    refine ⟨nodup_targetJobs _ _ _ _, ih _, ?_⟩
    intro a ha b hb hab
    subst hab
    have h1 := (mem_keys_targetJobs ha).1
    have h2 := mem_keys_jobsFrom hb
    omega

theorem nodup_jobs (css cts : List Nat) : ((jobs css cts).map Prod.fst).Nodup := nodup_jobsFrom _ _ _

/-- everything that is used of `combine_jobs`: if the chunk results are the blocks of one matrix
`M`, combining gives `M`. -/
theorem combine_blocks (M : List (List R)) (nT : Nat) (hM : ∀ r ∈ M, r.length = nT)
    (css cts : List Nat) (hs : css.sum = M.length) (ht : cts.sum = nT) (hcs : css ≠ []) (hct : cts ≠ [])
    (results : List (Key × List (List R)))
    (hres : ∀ i < css.length, ∀ j < cts.length, results.lookup (i, j) =
      ((jobs css cts).map fun kb => (kb.1, (slice kb.2.1 M).map (slice kb.2.2))).lookup (i, j)) :
    combine results css.length cts.length = some M := by
  have hrow : ∀ s : Span, (slice s M).map (slice (0, nT)) = slice s M := by
    intro s
    conv_rhs => rw [← List.map_id (slice s M)]
    apply List.map_congr_left
    intro r hr
    have : r ∈ M := List.mem_of_mem_drop (List.mem_of_mem_take hr)
    rw [← hM r this, slice_full]; rfl
  rw [combine_jobs (fun b => (slice b.1 M).map (slice b.2)) css cts (fun s => slice s M) ?_ ?_ results hres]
  · rw [vconcat, flatten_spans, hs, Nat.zero_add, slice_full]
    cases css with
    | nil => exact absurd rfl hcs
    | cons c cs => simp [spans]
  · intro hone s
    obtain ⟨c, rfl⟩ := List.length_eq_one_iff.1 hone
    have hc : c = nT := by simpa using ht
    simp [spans, hc, hrow]
  · intro _ s
    rw [hconcat_spans (slice s M) cts hct 0, ht, Nat.zero_add, hrow]

end Foxes.Run
