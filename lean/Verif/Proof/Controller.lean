import Verif.Model.Controller
import Mathlib.Data.List.Nodup
import Mathlib.Data.List.Range
import Mathlib.Algebra.BigOperators.Group.List.Basic
import Mathlib.Data.Nat.Find
import Mathlib.Tactic.ByContra
/- Helper lemmas for the farm controller's ordering. -/
namespace Foxes.Controller
variable {α : Type} [DecidableEq α]

/-- the list of turbine `j` -/
abbrev lst (names : List (List α)) (j : Nat) : List α := (names[j]?).getD []

structure Inv (names : List (List α)) (done : List α) (tmis : Nat → Nat) : Prop where
  le : ∀ j, tmis j ≤ (lst names j).length
  flt : ∀ j, done.filter (fun m => decide (m ∈ lst names j)) = (lst names j).take (tmis j)
  nd : done.Nodup

theorem cur_some {names : List (List α)} {tmis : Nat → Nat} {j : Nat} {m : α} (h : cur names tmis j = some m) :
    ∃ hlt : tmis j < (lst names j).length, (lst names j)[tmis j] = m := by
  unfold cur at h
  obtain ⟨h1, h2⟩ := List.getElem?_eq_some_iff.1 h
  exact ⟨h1, h2⟩

theorem cur_mem {names : List (List α)} {tmis : Nat → Nat} {j : Nat} {m : α} (h : cur names tmis j = some m) :
    m ∈ lst names j := by
  obtain ⟨h1, h2⟩ := cur_some h
  rw [← h2]; exact List.getElem_mem _

/-- the current model of a turbine has not been run yet -/
theorem cur_not_done {names : List (List α)} (hnd : ∀ j, (lst names j).Nodup) {done : List α} {tmis : Nat → Nat}
    (hi : Inv names done tmis) {j : Nat} {m : α} (h : cur names tmis j = some m) : m ∉ done := by
  intro hm
  have : m ∈ done.filter (fun m => decide (m ∈ lst names j)) :=
    List.mem_filter.2 ⟨hm, decide_eq_true (cur_mem h)⟩
  rw [hi.flt j] at this
  obtain ⟨h1, h2⟩ := cur_some h
  obtain ⟨i, hi1, hi2⟩ := List.getElem_of_mem this
  rw [List.getElem_take] at hi2
  have hlt : i < tmis j := by simp at hi1; omega
  have := (hnd j).getElem_inj_iff.1 (hi2.trans h2.symm)
  omega

/-- if the next model of a turbine is not done, it lies at or after the current position -/
theorem pos_of_not_done {names : List (List α)} {done : List α} {tmis : Nat → Nat} (hi : Inv names done tmis)
    {j : Nat} {m : α} (hm : m ∈ lst names j) (hnot : m ∉ done) :
    ∃ i, ∃ h : i < (lst names j).length, tmis j ≤ i ∧ (lst names j)[i] = m := by
  obtain ⟨i, h1, h2⟩ := List.getElem_of_mem hm
  refine ⟨i, h1, ?_, h2⟩
  by_contra hlt
  apply hnot
  have hmem : m ∈ (lst names j).take (tmis j) := by
    rw [List.mem_take_iff_getElem]
    exact ⟨i, by omega, h2⟩
  rw [← hi.flt j] at hmem
  exact (List.mem_filter.1 hmem).1

theorem pick_spec {names : List (List α)} {tmis : Nat → Nat} {m : α} (h : pick names tmis = some m) :
    ∃ ti, ti < names.length ∧ cur names tmis ti = some m ∧ isNext names tmis ti m = true := by
  unfold pick at h
  obtain ⟨ti, h1, h2⟩ := List.exists_of_findSome?_eq_some h
  refine ⟨ti, List.mem_range.1 h1, ?_⟩
  cases hc : cur names tmis ti with
  | none => rw [hc] at h2; simp at h2
  | some m' =>
    rw [hc] at h2
    simp only at h2
    split at h2
    · rename_i hn
      simp only [Option.some.injEq] at h2
      subst h2
      exact ⟨rfl, hn⟩
    · cases h2

theorem isNext_spec {names : List (List α)} {tmis : Nat → Nat} {ti : Nat} {m : α} :
    isNext names tmis ti m = true ↔
      ∀ tj, tj < names.length → tj ≠ ti → m ∈ lst names tj → ∀ m', cur names tmis tj = some m' → m' = m := by
  unfold isNext
  rw [List.all_eq_true]
  simp only [List.mem_range, Bool.not_eq_true', Bool.and_eq_false_iff, decide_eq_false_iff_not, ne_eq, not_not]
  constructor
  · intro h tj hj hne hm m' hc
    rcases h tj hj with (h | h) | h
    · exact absurd h hne
    · rw [Bool.eq_false_iff] at h
      exact absurd (List.contains_iff_mem.2 hm) h
    · rw [hc] at h
      simpa using h
  · intro h tj hj
    by_cases hne : tj = ti
    · exact Or.inl (Or.inl hne)
    · by_cases hm : m ∈ lst names tj
      · right
        cases hc : cur names tmis tj with
        | none => rfl
        | some m' => simpa using h tj hj hne hm m' hc
      · left; right
        rw [Bool.eq_false_iff]
        exact fun hc => hm (List.contains_iff_mem.1 hc)

/-- when a model is picked, exactly the turbines listing it stand at it -/
theorem pick_all {names : List (List α)} (hnd : ∀ j, (lst names j).Nodup) {done : List α} {tmis : Nat → Nat}
    (hi : Inv names done tmis) {m : α} (h : pick names tmis = some m) (j : Nat) :
    cur names tmis j = some m ↔ m ∈ lst names j := by
  refine ⟨cur_mem, ?_⟩
  intro hm
  obtain ⟨ti, hti, hc, hn⟩ := pick_spec h
  have hnot := cur_not_done hnd hi hc
  by_cases hj : j = ti
  · rw [hj]; exact hc
  have hjn : j < names.length := by
    by_contra hge
    have : lst names j = [] := by simp [lst, List.getElem?_eq_none (Nat.le_of_not_lt hge)]
    rw [this] at hm; cases hm
  obtain ⟨i, h1, h2, _⟩ := pos_of_not_done hi hm hnot
  have hlt : tmis j < (lst names j).length := by omega
  have hcj : cur names tmis j = some (lst names j)[tmis j] := by
    unfold cur; exact List.getElem?_eq_getElem hlt
  rw [hcj, isNext_spec.1 hn j hjn hj hm _ hcj]

theorem inv_step {names : List (List α)} (hnd : ∀ j, (lst names j).Nodup) {done : List α} {tmis : Nat → Nat}
    (hi : Inv names done tmis) {m : α} (h : pick names tmis = some m) :
    Inv names (done ++ [m]) (advance names tmis m) := by
  obtain ⟨ti, hti, hc, hn⟩ := pick_spec h
  have hnot := cur_not_done hnd hi hc
  refine ⟨?_, ?_, ?_⟩
  · intro j
    unfold advance
    split
    · rename_i hj
      obtain ⟨h1, _⟩ := cur_some hj
      exact h1
    · exact hi.le j
  · intro j
    rw [List.filter_append, hi.flt j]
    unfold advance
    by_cases hm : m ∈ lst names j
    · have hj := (pick_all hnd hi h j).2 hm
      obtain ⟨h1, h2⟩ := cur_some hj
      rw [if_pos hj, List.take_add_one, List.getElem?_eq_getElem h1, h2]
      simp [hm]
    · have hj : ¬ cur names tmis j = some m := fun hc => hm (cur_mem hc)
      rw [if_neg hj]
      simp [hm]
  · rw [List.nodup_append]
    exact ⟨hi.nd, by simp, by
      intro a ha b hb
      rw [List.mem_singleton.1 hb]
      rintro rfl
      exact hnot ha⟩

/-- number of steps still to do -/
def todo (names : List (List α)) (tmis : Nat → Nat) : Nat :=
  ((List.range names.length).map (fun j => (lst names j).length - tmis j)).sum

theorem sum_lt_of_lt (l : List Nat) (f g : Nat → Nat) (hle : ∀ i ∈ l, f i ≤ g i) (i : Nat) (hi : i ∈ l) (hlt : f i < g i) :
    (l.map f).sum < (l.map g).sum := by
  induction l with
  | nil => cases hi
  | cons a l ih =>
    have hsum : (l.map f).sum ≤ (l.map g).sum := by
      have : ∀ (l : List Nat), (∀ i ∈ l, f i ≤ g i) → (l.map f).sum ≤ (l.map g).sum := by
        intro l
        induction l with
        | nil => intro _; exact Nat.le_refl _
        | cons b l ih =>
          intro h
          simp only [List.map_cons, List.sum_cons]
          have := h b List.mem_cons_self
          have := ih (fun i hi => h i (List.mem_cons_of_mem _ hi))
          omega
      exact this l (fun i hi => hle i (List.mem_cons_of_mem _ hi))
    simp only [List.map_cons, List.sum_cons]
    have ha := hle a List.mem_cons_self
    rcases List.mem_cons.1 hi with rfl | hi
    · omega
    · have := ih (fun i hi => hle i (List.mem_cons_of_mem _ hi)) hi
      omega

theorem todo_step {names : List (List α)} {tmis : Nat → Nat} {m : α} (h : pick names tmis = some m) :
    todo names (advance names tmis m) < todo names tmis := by
  obtain ⟨ti, hti, hc, _⟩ := pick_spec h
  apply sum_lt_of_lt _ _ _ _ ti (List.mem_range.2 hti)
  · obtain ⟨h1, _⟩ := cur_some hc
    simp only [advance, if_pos hc]
    omega
  · intro j _
    unfold advance
    split <;> omega

theorem rounds_spec {names : List (List α)} (hnd : ∀ j, (lst names j).Nodup) (f : Nat) (done : List α) (tmis : Nat → Nat)
    (hi : Inv names done tmis) (hf : todo names tmis ≤ f) :
    Inv names (done ++ (rounds names f tmis).1.map (·.name)) (rounds names f tmis).2 ∧
    pick names (rounds names f tmis).2 = none ∧
    ∀ e ∈ (rounds names f tmis).1, ∀ j i, e.pos j = some i ↔ (lst names j)[i]? = some e.name := by
  induction f generalizing done tmis with
  | zero =>
    simp only [rounds, List.map_nil, List.append_nil]
    refine ⟨hi, ?_, by simp⟩
    cases h : pick names tmis with
    | none => rfl
    | some m => have := todo_step h; omega
  | succ f ih =>
    rw [rounds]
    cases h : pick names tmis with
    | none => simpa using ⟨hi, h⟩
    | some m =>
      obtain ⟨h1, h2, h3⟩ := ih (done ++ [m]) (advance names tmis m) (inv_step hnd hi h) (by
        have := todo_step h; omega)
      simp only
      refine ⟨?_, h2, ?_⟩
      · simpa using h1
      · intro e he j i
        rcases List.mem_cons.1 he with rfl | he
        · simp only
          constructor
          · intro hp
            split at hp
            · rename_i hc
              simp only [Option.some.injEq] at hp
              subst hp
              exact hc
            · cases hp
          · intro hp
            obtain ⟨hlt, he⟩ := List.getElem?_eq_some_iff.1 hp
            have hmem : m ∈ lst names j := by rw [← he]; exact List.getElem_mem _
            have hc := (pick_all hnd hi h j).2 hmem
            obtain ⟨c1, c2⟩ := cur_some hc
            rw [if_pos hc]
            rw [(hnd j).getElem_inj_iff.1 (c2.trans he.symm)]
        · exact h3 e he j i

theorem todo_zero (names : List (List α)) : todo names (fun _ => 0) = fuel names := by
  unfold todo fuel
  congr 1
  apply List.ext_getElem
  · simp
  · intro i h1 h2
    have : i < names.length := by simpa using h2
    simp [lst, this]

theorem inv_init (names : List (List α)) : Inv names [] (fun _ => 0) :=
  ⟨fun _ => Nat.zero_le _, fun _ => by simp, List.nodup_nil⟩

theorem idx_lt_of_sublist {L l : List α} (hL : L.Nodup) (hs : l.Sublist L) {i j : Nat} (hij : i < j) (hj : j < l.length) :
    L.idxOf l[i] < L.idxOf l[j] := by
  have hp : L.Pairwise (fun a b => L.idxOf a < L.idxOf b) := by
    rw [List.pairwise_iff_getElem]
    intro a b ha hb hab
    rw [hL.idxOf_getElem a ha, hL.idxOf_getElem b hb]
    exact hab
  exact List.pairwise_iff_getElem.1 (hp.sublist hs) i j (by omega) hj hij

/-- a compatible overall order guarantees progress -/
theorem progress {names : List (List α)} (hnd : ∀ j, (lst names j).Nodup) {done : List α} {tmis : Nat → Nat}
    (hi : Inv names done tmis) (L : List α) (hL : L.Nodup) (hs : ∀ l ∈ names, l.Sublist L)
    (hpick : pick names tmis = none) : ∀ j, j < names.length → tmis j = (lst names j).length := by
  by_contra hcon
  have hex : ∃ k ti, ti < names.length ∧ ∃ m, cur names tmis ti = some m ∧ L.idxOf m = k := by
    have : ∃ j, j < names.length ∧ tmis j ≠ (lst names j).length := by
      by_contra h
      exact hcon (fun j hj => by by_contra hx; exact h ⟨j, hj, hx⟩)
    obtain ⟨j, hj, hne⟩ := this
    have hlt : tmis j < (lst names j).length := Nat.lt_of_le_of_ne (hi.le j) hne
    exact ⟨_, j, hj, _, List.getElem?_eq_getElem hlt, rfl⟩
  classical
  obtain ⟨ti, hti, m, hc, hk⟩ := Nat.find_spec hex
  have hnext : isNext names tmis ti m = true := by
    rw [isNext_spec]
    intro tj htj hne hm m' hc'
    by_contra hmm
    have hnot := cur_not_done hnd hi hc
    obtain ⟨i, h1, h2, h3⟩ := pos_of_not_done hi hm hnot
    obtain ⟨c1, c2⟩ := cur_some hc'
    have hlt : tmis tj < i := by
      rcases Nat.lt_or_ge (tmis tj) i with h | h
      · exact h
      · have : i = tmis tj := by omega
        subst this
        exact absurd (c2.symm.trans h3) hmm
    have hmem : lst names tj ∈ names := by
      simp only [lst, List.getElem?_eq_getElem htj, Option.getD_some]
      exact List.getElem_mem _
    have := idx_lt_of_sublist hL (hs _ hmem) hlt h1
    rw [c2, h3, hk] at this
    exact Nat.find_min hex this ⟨tj, htj, m', hc', rfl⟩
  unfold pick at hpick
  rw [List.findSome?_eq_none_iff] at hpick
  have := hpick ti (List.mem_range.2 hti)
  rw [hc] at this
  simp [hnext] at this

end Foxes.Controller
