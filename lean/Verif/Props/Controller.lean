import Verif.Proof.Controller
/- C20: execution order of turbine models. C21: states selections. -/
namespace Foxes.Props.Controller
open Foxes.Controller
variable {α : Type} [DecidableEq α]

theorem analyze_ok {names : List (List α)} (hnd : ∀ l ∈ names, l.Nodup) {out : List (Entry α)} (h : analyze names = .ok out) :
    ∃ tmis, Inv names (out.map (·.name)) tmis ∧ (∀ j, j < names.length → tmis j = (lst names j).length) ∧
      (∀ e ∈ out, ∀ j i, e.pos j = some i ↔ (lst names j)[i]? = some e.name) := by
  have hnd' : ∀ j, (lst names j).Nodup := by
    intro j
    rcases Nat.lt_or_ge j names.length with hj | hj
    · simp only [lst, List.getElem?_eq_getElem hj, Option.getD_some]
      exact hnd _ (List.getElem_mem _)
    · simp [lst, List.getElem?_eq_none hj]
  obtain ⟨h1, _, h3⟩ := rounds_spec hnd' (fuel names) [] (fun _ => 0) (inv_init names) (by rw [todo_zero])
  unfold analyze at h
  simp only at h
  split at h
  · cases h
  · rename_i hf
    cases h
    refine ⟨_, by simpa using h1, ?_, h3⟩
    intro j hj
    rw [List.find?_eq_none] at hf
    have := hf j (List.mem_range.2 hj)
    simpa using this

/-- **C20 (order).** If no turbine lists a model twice and the controller accepts the lists, then the execution order
contains no model twice, and restricted to the models of any turbine it is exactly that turbine's list: all its
models, once each, in its order. -/
theorem C20_every_turbines_order (names : List (List α)) (hnd : ∀ l ∈ names, l.Nodup) (out : List (Entry α))
    (h : analyze names = .ok out) :
    (out.map (·.name)).Nodup ∧ ∀ l ∈ names, (out.map (·.name)).filter (fun m => decide (m ∈ l)) = l := by
  obtain ⟨tmis, hi, hf, _⟩ := analyze_ok hnd h
  refine ⟨hi.nd, ?_⟩
  intro l hl
  obtain ⟨j, hj, rfl⟩ := List.getElem_of_mem hl
  have := hi.flt j
  rw [hf j hj, List.take_length] at this
  simpa [lst, List.getElem?_eq_getElem hj] using this

/-- **C20 (which turbines).** An executed model is applied to exactly the turbines that list it, with the position it
has in that turbine's list. -/
theorem C20_applied_to_listing_turbines (names : List (List α)) (hnd : ∀ l ∈ names, l.Nodup) (out : List (Entry α))
    (h : analyze names = .ok out) (e : Entry α) (he : e ∈ out) (j i : Nat) :
    e.pos j = some i ↔ ∃ l, names[j]? = some l ∧ l[i]? = some e.name := by
  obtain ⟨_, _, _, h3⟩ := analyze_ok hnd h
  rw [h3 e he j i]
  cases hj : names[j]? with
  | none => simp [lst, hj]
  | some l => simp [lst, hj]

/-- **C20 (when it raises).** The controller succeeds exactly if there is one overall order of models that is compatible
with every turbine's list, i.e. it raises exactly on contradicting lists. -/
theorem C20_succeeds_iff_compatible (names : List (List α)) (hnd : ∀ l ∈ names, l.Nodup) :
    (∃ out, analyze names = .ok out) ↔ ∃ L : List α, L.Nodup ∧ ∀ l ∈ names, l.Sublist L := by
  constructor
  · rintro ⟨out, h⟩
    obtain ⟨h1, h2⟩ := C20_every_turbines_order names hnd out h
    refine ⟨out.map (·.name), h1, ?_⟩
    intro l hl
    have := h2 l hl
    rw [← this]
    exact List.filter_sublist
  · rintro ⟨L, hL, hs⟩
    have hnd' : ∀ j, (lst names j).Nodup := by
      intro j
      rcases Nat.lt_or_ge j names.length with hj | hj
      · simp only [lst, List.getElem?_eq_getElem hj, Option.getD_some]
        exact hnd _ (List.getElem_mem _)
      · simp [lst, List.getElem?_eq_none hj]
    obtain ⟨h1, h2, _⟩ := rounds_spec hnd' (fuel names) [] (fun _ => 0) (inv_init names) (by rw [todo_zero])
    have hp := progress hnd' h1 L hL hs h2
    refine ⟨(rounds names (fuel names) (fun _ => 0)).1, ?_⟩
    unfold analyze
    simp only
    split
    · rename_i ti hf
      have hm := List.mem_of_find?_eq_some hf
      have hd := List.find?_some hf
      exact absurd (hp ti (List.mem_range.1 hm)) (by simpa using hd)
    · rfl

example : ((analyze [["a", "b", "d"], ["c", "b"], ["a", "c", "d"]]).toOption.map (·.map (·.name))) = some ["a", "c", "b", "d"] ∧
    (analyze [["a", "b"], ["b", "c"], ["c", "a"]]).toOption.isNone = true := by
  constructor <;> decide

/-! ### Between pre-rotor and post-rotor models -/

variable {σ : Type}

/-- **C20 (one turbine, partial).** Pre-rotor models first, then post-rotor models, each in the turbine's order; this is
the turbine's own order exactly if no pre-rotor model comes after a post-rotor model in it. (Names are
distinct.) -/
theorem C20_own_order_iff_partial (l : List (Listed α σ)) (hnd : (l.map (·.name)).Nodup) :
    executed l = l.map (·.name) ↔ l.Pairwise (fun a b => b.pre = true → a.pre = true) := by
  induction l with
  | nil => simp [executed, sublist]
  | cons a l ih =>
    have hnd' : (l.map (·.name)).Nodup := (List.nodup_cons.1 hnd).2
    have ha : a.name ∉ l.map (·.name) := (List.nodup_cons.1 hnd).1
    rw [List.pairwise_cons, ← ih hnd']
    cases hp : a.pre with
    | true =>
      simp [executed, sublist, hp]
    | false =>
      constructor
      · intro h
        -- the first executed model is a pre-rotor one unless there is none
        have hnone : sublist true l = [] := by
          cases hs : sublist true l with
          | nil => rfl
          | cons b bs =>
            have h1 : executed (a :: l) = sublist true l ++ (a.name :: sublist false l) := by
              simp [executed, sublist, hp]
            rw [h1, hs] at h
            simp only [List.cons_append, List.map_cons, List.cons.injEq] at h
            have hb : b ∈ sublist true l := by rw [hs]; exact List.mem_cons_self
            obtain ⟨e, he, rfl⟩ := List.mem_map.1 hb
            exact absurd (List.mem_map.2 ⟨e, (List.mem_filter.1 he).1, h.1⟩) ha
        have hall : ∀ b ∈ l, b.pre = false := by
          intro b hb
          by_contra hx
          have : b.name ∈ sublist true l := List.mem_map.2 ⟨b, List.mem_filter.2 ⟨hb, by simpa using hx⟩, rfl⟩
          rw [hnone] at this; cases this
        refine ⟨fun b hb hbp => absurd hbp (by rw [hall b hb]; decide), ?_⟩
        unfold executed
        rw [hnone]
        unfold sublist
        rw [List.filter_eq_self.2 (by intro b hb; simp [hall b hb])]
        rfl
      · rintro ⟨hall, h⟩
        have hall' : ∀ b ∈ l, b.pre = false := by
          intro b hb
          by_contra hx
          have := hall b hb (by simpa using hx)
          cases this
        have hnone : l.filter (fun e => e.pre == true) = [] := by
          rw [List.filter_eq_nil_iff]; intro b hb; simp [hall' b hb]
        have hself : l.filter (fun e => e.pre == false) = l := by
          rw [List.filter_eq_self]; intro b hb; simp [hall' b hb]
        have e1 : sublist true (a :: l) = [] := by
          unfold sublist; rw [List.filter_cons, hnone]; simp [hp]
        have e2 : sublist false (a :: l) = (a :: l).map (·.name) := by
          unfold sublist; rw [List.filter_cons, hself]; simp [hp]
        unfold executed; rw [e1, e2]; rfl

/-- **C20 (finding).** A pre-rotor model listed after a post-rotor model is executed before it, without error. -/
theorem C20_pre_rotor_after_post_rotor_counterexample :
    executed [(⟨"power", false, ()⟩ : Listed String Unit), ⟨"yaw", true, ()⟩] = ["yaw", "power"] := by decide

/-- **C21 (finding).** If `k` pre-rotor models come first, the `i`-th post-rotor model is restricted by the selection the
user gave for position `i` of the full list, not by that of its own position `k + i`. -/
theorem C21_post_rotor_selection_shifted (pre post : List (Listed α σ)) (hpre : ∀ e ∈ pre, e.pre = true)
    (hpost : ∀ e ∈ post, e.pre = false) (i : Nat) (hi : i < post.length) :
    (sublist false (pre ++ post))[i]? = some post[i].name ∧
    usedSel (pre ++ post) i = (if h : i < pre.length then some pre[i].sel else (post[i - pre.length]?).map (·.sel)) := by
  have h1 : pre.filter (fun e => e.pre == false) = [] := by
    rw [List.filter_eq_nil_iff]; intro b hb; simp [hpre b hb]
  have h2 : post.filter (fun e => e.pre == false) = post := by
    rw [List.filter_eq_self]; intro b hb; simp [hpost b hb]
  refine ⟨by unfold sublist; rw [List.filter_append, h1, h2]; simp [hi], ?_⟩
  unfold usedSel
  split
  · rename_i h; rw [List.getElem?_append_left h, List.getElem?_eq_getElem h]; rfl
  · rename_i h; rw [List.getElem?_append_right (Nat.le_of_not_lt h)]

/-- **C21 (partial).** If all models of a turbine are of one kind, or one looks at the pre-rotor models and they come
first, the selection given for position `i` restricts the `i`-th model. -/
theorem C21_selection_right_partial (pre post : List (Listed α σ)) (b : Bool) (hpre : ∀ e ∈ pre, e.pre = b)
    (hpost : ∀ e ∈ post, e.pre = !b) (i : Nat) (hi : i < pre.length) :
    (sublist b (pre ++ post))[i]? = some pre[i].name ∧ usedSel (pre ++ post) i = some pre[i].sel := by
  have h1 : pre.filter (fun e => e.pre == b) = pre := by
    rw [List.filter_eq_self]; intro x hx; simp [hpre x hx]
  have h2 : post.filter (fun e => e.pre == b) = [] := by
    rw [List.filter_eq_nil_iff]; intro x hx; simp [hpost x hx]
  refine ⟨by simp [sublist, h1, h2, hi], ?_⟩
  unfold usedSel
  rw [List.getElem?_append_left hi, List.getElem?_eq_getElem hi]; rfl

/-- C21, concrete: the selection for the yaw model restricts the turbine type, the one for the turbine type is not used
at all. -/
theorem C21_counterexample :
    let l : List (Listed String (List Nat)) := [⟨"yaw", true, [3]⟩, ⟨"NREL5MW", false, [0, 1]⟩]
    (sublist false l)[0]? = some "NREL5MW" ∧ usedSel l 0 = some [3] := by decide

end Foxes.Props.Controller
