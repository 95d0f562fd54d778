import Verif.Model.TurbineObj
/-
C50: the models of a turbine are those given to it and added to it.
-/
namespace Foxes.Props.TurbineObj
open Foxes.TurbineObj

/-- Specification: a turbine has its own models and selections; `own` tells whether it was made with a list of its own. -/
structure SpecTurb where
  own : Bool
  models : List String
  sels : List SSel

/-- Specification of the operations: they concern one turbine only. -/
def specStep (s : List SpecTurb) : Op → List SpecTurb
  | .new ms => s ++ [⟨true, ms, ms.map (fun _ => none)⟩]
  | .newDefault => s ++ [⟨false, [], []⟩]
  | .layout ms n => s ++ List.replicate n ⟨false, ms, ms.map (fun _ => none)⟩
  | .add t m x => s.modify t (fun u => { u with models := u.models ++ [m], sels := u.sels ++ [x] })
  | .insert t i m x => s.modify t (fun u => { u with models := u.models.take i ++ m :: u.models.drop i, sels := u.sels.take i ++ x :: u.sels.drop i })

/-- expected turbines after all operations -/
def spec (ops : List Op) : List SpecTurb := ops.foldl specStep []

/-- Operations that add models only to turbines made with a list of their own. -/
def Careful : List SpecTurb → List Op → Prop
  | _, [] => True
  | s, .add t m x :: ops => (∀ u, s[t]? = some u → u.own = true) ∧ Careful (specStep s (.add t m x)) ops
  | s, .insert t i m x :: ops => (∀ u, s[t]? = some u → u.own = true) ∧ Careful (specStep s (.insert t i m x)) ops
  | s, op :: ops => Careful (specStep s op) ops

/-- what relates the world to the specification -/
structure Rel (w : World) (s : List SpecTurb) : Prop where
  pos : 0 < w.next
  len : w.turbs.length = s.length
  default : w.mlists 0 = []
  models : ∀ (t : ℕ) o u, w.turbs[t]? = some o → s[t]? = some u → w.mlists o.mref = u.models ∧ w.slists o.sref = u.sels
  bound : ∀ (t : ℕ) o, w.turbs[t]? = some o → o.mref < w.next ∧ o.sref < w.next
  sdisj : ∀ (t t' : ℕ) o o', w.turbs[t]? = some o → w.turbs[t']? = some o' → o.sref = o'.sref → t = t'
  own : ∀ (t t' : ℕ) o o' u, w.turbs[t]? = some o → w.turbs[t']? = some o' → s[t]? = some u → u.own = true → o.mref = o'.mref → t = t'
  own0 : ∀ (t : ℕ) o u, w.turbs[t]? = some o → s[t]? = some u → u.own = true → o.mref ≠ 0

lemma append_get {α : Type} (l : List α) (x : α) (t : ℕ) (o : α) (h : (l ++ [x])[t]? = some o) : (t < l.length ∧ l[t]? = some o) ∨ (t = l.length ∧ o = x) := by
  by_cases ht : t < l.length
  · rw [List.getElem?_append_left ht] at h; exact Or.inl ⟨ht, h⟩
  · rw [List.getElem?_append_right (by omega)] at h
    have h0 : t - l.length = 0 := by
      by_contra hne
      have : ([x] : List α)[t - l.length]? = none := List.getElem?_eq_none (by simp; omega)
      rw [this] at h; cases h
    rw [h0] at h
    simp only [List.getElem?_cons_zero, Option.some.injEq] at h
    exact Or.inr ⟨by omega, h.symm⟩

/-- one more turbine with the list in cell `r`, which no turbine with an own list uses; if it is to have an own list, no turbine uses it -/
lemma rel_create (w : World) (s : List SpecTurb) (h : Rel w s) (r : ℕ) (b : Bool) (hr : r < w.next)
    (hown : ∀ (t : ℕ) o u, w.turbs[t]? = some o → s[t]? = some u → u.own = true → o.mref ≠ r)
    (hb : b = true → r ≠ 0 ∧ ∀ (t : ℕ) o, w.turbs[t]? = some o → o.mref ≠ r) :
    Rel (create w r) (s ++ [⟨b, w.mlists r, (w.mlists r).map (fun _ => none)⟩]) := by
  have hl := h.len
  refine ⟨by simp [create], by simp [create, hl], h.default, ?_, ?_, ?_, ?_, ?_⟩
  · intro t o u ho hu
    rcases append_get _ _ _ _ ho with ⟨h1, h2⟩ | ⟨h1, rfl⟩
    · rcases append_get _ _ _ _ hu with ⟨h3, h4⟩ | ⟨h3, _⟩
      · obtain ⟨g1, g2⟩ := h.models t o u h2 h4
        refine ⟨g1, ?_⟩
        have := (h.bound t o h2).2
        simp only [create, put]
        rw [if_neg (by omega)]; exact g2
      · omega
    · rcases append_get _ _ _ _ hu with ⟨h3, _⟩ | ⟨_, rfl⟩
      · omega
      · simp [create, put, List.map_const']
  · intro t o ho
    rcases append_get _ _ _ _ ho with ⟨_, h2⟩ | ⟨_, rfl⟩
    · have := h.bound t o h2; simp only [create]; omega
    · simp only [create]; omega
  · intro t t' o o' ho ho' heq
    rcases append_get _ _ _ _ ho with ⟨_, h2⟩ | ⟨h1, rfl⟩ <;> rcases append_get _ _ _ _ ho' with ⟨_, h2'⟩ | ⟨h1', rfl⟩
    · exact h.sdisj t t' o o' h2 h2' heq
    · have := (h.bound t o h2).2; simp only at heq; omega
    · have := (h.bound t' o' h2').2; simp only at heq; omega
    · omega
  · intro t t' o o' u ho ho' hu hu1 heq
    rcases append_get _ _ _ _ ho with ⟨h1, h2⟩ | ⟨h1, rfl⟩ <;> rcases append_get _ _ _ _ ho' with ⟨h1', h2'⟩ | ⟨h1', rfl⟩ <;>
      rcases append_get _ _ _ _ hu with ⟨h3, h4⟩ | ⟨h3, rfl⟩
    · exact h.own t t' o o' u h2 h2' h4 hu1 heq
    · omega
    · exact absurd heq (hown t o u h2 h4 hu1)
    · omega
    · omega
    · exact absurd heq.symm ((hb hu1).2 t' o' h2')
    · omega
    · omega
  · intro t o u ho hu hu1
    rcases append_get _ _ _ _ ho with ⟨h1, h2⟩ | ⟨h1, rfl⟩ <;> rcases append_get _ _ _ _ hu with ⟨h3, h4⟩ | ⟨h3, rfl⟩
    · exact h.own0 t o u h2 h4 hu1
    · omega
    · omega
    · exact (hb hu1).1

lemma rel_alloc (w : World) (s : List SpecTurb) (h : Rel w s) (ms : List String) :
    Rel (alloc w ms) s ∧ (alloc w ms).mlists w.next = ms ∧ (∀ (t : ℕ) o, (alloc w ms).turbs[t]? = some o → o.mref ≠ w.next) := by
  refine ⟨⟨by simp [alloc], h.len, ?_, ?_, ?_, h.sdisj, h.own, h.own0⟩, by simp [alloc, put], ?_⟩
  · have := h.pos
    simp only [alloc, put]; rw [if_neg (by omega)]; exact h.default
  · intro t o u ho hu
    have := (h.bound t o ho).1
    simp only [alloc, put]; rw [if_neg (by omega)]; exact h.models t o u ho hu
  · intro t o ho
    have := h.bound t o ho
    simp only [alloc]; omega
  · intro t o ho
    have := (h.bound t o ho).1
    omega

lemma rel_createN (n : ℕ) (w : World) (s : List SpecTurb) (h : Rel w s) (r : ℕ) (hr : r < w.next)
    (hown : ∀ (t : ℕ) o u, w.turbs[t]? = some o → s[t]? = some u → u.own = true → o.mref ≠ r) :
    Rel (createN w r n) (s ++ List.replicate n ⟨false, w.mlists r, (w.mlists r).map (fun _ => none)⟩) := by
  induction n generalizing w s with
  | zero => simpa [createN] using h
  | succ n ih =>
    have h1 := rel_create w s h r false hr hown (by simp)
    have h2 := ih (create w r) _ h1 (by simp [create]; omega) (by
      intro t o u ho hu hu1
      rcases append_get _ _ _ _ ho with ⟨h1, h2⟩ | ⟨h1, rfl⟩ <;> rcases append_get _ _ _ _ hu with ⟨h3, h4⟩ | ⟨h3, rfl⟩
      · exact hown t o u h2 h4 hu1
      · simp at hu1
      · have := h.len; omega
      · simp at hu1)
    have e : (create w r).mlists r = w.mlists r := rfl
    rw [e, List.append_assoc] at h2
    rw [createN, List.replicate_succ]
    simpa using h2

/-- change of the lists of a turbine with an own list -/
lemma rel_modify (w : World) (s : List SpecTurb) (h : Rel w s) (t : ℕ) (o : Obj) (ho : w.turbs[t]? = some o) (hown : ∀ u, s[t]? = some u → u.own = true)
    (f : List String → List String) (g : List SSel → List SSel) :
    Rel { w with mlists := put w.mlists o.mref (f (w.mlists o.mref)), slists := put w.slists o.sref (g (w.slists o.sref)) }
      (s.modify t (fun u => { u with models := f u.models, sels := g u.sels })) := by
  obtain ⟨u, hu⟩ : ∃ u, s[t]? = some u := by
    have : t < s.length := by
      rw [← h.len]
      exact (List.getElem?_eq_some_iff.1 ho).1
    exact ⟨_, List.getElem?_eq_getElem this⟩
  have hu1 := hown u hu
  have hget : ∀ (t' : ℕ) u', (s.modify t (fun u => { u with models := f u.models, sels := g u.sels }))[t']? = some u' →
      ∃ v, s[t']? = some v ∧ u'.own = v.own ∧ u' = (if t = t' then { v with models := f v.models, sels := g v.sels } else v) := by
    intro t' u' hu'
    rw [List.getElem?_modify] at hu'
    cases hs : s[t']? with
    | none => rw [hs] at hu'; cases hu'
    | some v =>
      rw [hs] at hu'
      simp only [Option.map_eq_map, Option.map_some, Option.some.injEq] at hu'
      refine ⟨v, rfl, ?_, ?_⟩
      · rw [← hu']; split_ifs <;> rfl
      · rw [← hu']
  refine ⟨h.pos, by simp [h.len], ?_, ?_, h.bound, h.sdisj, ?_, ?_⟩
  · have := h.own0 t o u ho hu hu1
    simp only [put]; rw [if_neg (fun e => this e.symm)]; exact h.default
  · intro t' o' u' ho' hu'
    obtain ⟨v, hv, _, rfl⟩ := hget t' u' hu'
    obtain ⟨g1, g2⟩ := h.models t' o' v ho' hv
    by_cases htt : t = t'
    · subst htt
      rw [ho] at ho'
      simp only [Option.some.injEq] at ho'
      subst ho'
      simp [put, g1, g2]
    · have n1 : o'.mref ≠ o.mref := fun e => htt (h.own t t' o o' u ho ho' hu hu1 e.symm)
      have n2 : o'.sref ≠ o.sref := fun e => htt (h.sdisj t t' o o' ho ho' e.symm)
      rw [if_neg htt]
      simp [put, n1, n2, g1, g2]
  · intro t1 t2 o1 o2 u1 h1 h2 hs hw heq
    obtain ⟨v, hv, ho, _⟩ := hget t1 u1 hs
    exact h.own t1 t2 o1 o2 v h1 h2 hv (ho ▸ hw) heq
  · intro t1 o1 u1 h1 hs hw
    obtain ⟨v, hv, ho, _⟩ := hget t1 u1 hs
    exact h.own0 t1 o1 v h1 hv (ho ▸ hw)

lemma rel_step (w : World) (s : List SpecTurb) (h : Rel w s) (op : Op) (ops : List Op) (hc : Careful s (op :: ops)) :
    Rel (step w op) (specStep s op) ∧ Careful (specStep s op) ops := by
  cases op with
  | new ms =>
    refine ⟨?_, hc⟩
    obtain ⟨h1, h2, h3⟩ := rel_alloc w s h ms
    have := rel_create (alloc w ms) s h1 w.next true (by simp [alloc]) (fun t o u ho _ _ => h3 t o ho) (fun _ => ⟨by have := h.pos; omega, h3⟩)
    rw [h2] at this
    exact this
  | newDefault =>
    refine ⟨?_, hc⟩
    have := rel_create w s h 0 false h.pos h.own0 (by simp)
    rw [h.default] at this
    exact this
  | layout ms n =>
    refine ⟨?_, hc⟩
    obtain ⟨h1, h2, h3⟩ := rel_alloc w s h ms
    have := rel_createN n (alloc w ms) s h1 w.next (by simp [alloc]) (fun t o u ho _ _ => h3 t o ho)
    rw [h2] at this
    exact this
  | add t m x =>
    refine ⟨?_, hc.2⟩
    simp only [step, specStep]
    cases ho : w.turbs[t]? with
    | none =>
      have : s.length ≤ t := by rw [← h.len]; exact List.getElem?_eq_none_iff.1 ho
      rw [List.modify_eq_self this]; exact h
    | some o => exact rel_modify w s h t o ho hc.1 (· ++ [m]) (· ++ [x])
  | insert t i m x =>
    refine ⟨?_, hc.2⟩
    simp only [step, specStep]
    cases ho : w.turbs[t]? with
    | none =>
      have : s.length ≤ t := by rw [← h.len]; exact List.getElem?_eq_none_iff.1 ho
      rw [List.modify_eq_self this]; exact h
    | some o => exact rel_modify w s h t o ho hc.1 (pyInsert i m) (pyInsert i x)

lemma rel_run (ops : List Op) (w : World) (s : List SpecTurb) (h : Rel w s) (hc : Careful s ops) : Rel (ops.foldl step w) (ops.foldl specStep s) := by
  induction ops generalizing w s with
  | nil => exact h
  | cons op ops ih =>
    obtain ⟨h1, h2⟩ := rel_step w s h op ops hc
    exact ih _ _ h1 h2

lemma rel_start : Rel World.start [] := by
  constructor <;> simp [World.start]

/-- **C50 (partial).** For all sequences of creating turbines and adding or inserting models in which models are added only to turbines made with a list
of their own (not by a layout function, not without models), every turbine has exactly the models and selections given to it and added to it.
(For other sequences this is false, see below.) -/
theorem C50_models_partial (ops : List Op) (hc : Careful [] ops) : view (run ops) = (spec ops).map (fun u => (u.models, u.sels)) := by
  have h := rel_run ops World.start [] rel_start hc
  apply List.ext_getElem
  · simp only [view, List.length_map]; exact h.len
  · intro i h1 h2
    simp only [view, List.length_map] at h1 h2
    simp only [view, List.getElem_map]
    have := h.models i _ _ (List.getElem?_eq_getElem h1) (List.getElem?_eq_getElem h2)
    exact Prod.ext this.1 this.2

lemma spec_lengths (ops : List Op) : ∀ u ∈ spec ops, u.models.length = u.sels.length := by
  have key : ∀ (ops : List Op) (s : List SpecTurb), (∀ u ∈ s, u.models.length = u.sels.length) → ∀ u ∈ ops.foldl specStep s, u.models.length = u.sels.length := by
    intro ops
    induction ops with
    | nil => intro s h; exact h
    | cons op ops ih =>
      intro s h
      apply ih
      have hmod : ∀ (f : SpecTurb → SpecTurb) (t : ℕ), (∀ u, u.models.length = u.sels.length → (f u).models.length = (f u).sels.length) →
          ∀ u ∈ s.modify t f, u.models.length = u.sels.length := by
        intro f t hf u hu
        obtain ⟨i, hi⟩ := List.mem_iff_getElem?.1 hu
        rw [List.getElem?_modify] at hi
        cases hs : s[i]? with
        | none => rw [hs] at hi; cases hi
        | some v =>
          rw [hs] at hi
          simp only [Option.map_eq_map, Option.map_some, Option.some.injEq] at hi
          have hv := h v (List.mem_iff_getElem?.2 ⟨i, hs⟩)
          rw [← hi]
          split_ifs
          · exact hf v hv
          · exact hv
      cases op with
      | new ms =>
        intro u hu
        simp only [specStep, List.mem_append, List.mem_singleton] at hu
        rcases hu with hu | rfl
        · exact h u hu
        · simp
      | newDefault =>
        intro u hu
        simp only [specStep, List.mem_append, List.mem_singleton] at hu
        rcases hu with hu | rfl
        · exact h u hu
        · simp
      | layout ms n =>
        intro u hu
        simp only [specStep, List.mem_append] at hu
        rcases hu with hu | hu
        · exact h u hu
        · rw [List.eq_of_mem_replicate hu]; simp
      | add t m x => exact hmod _ t (fun u hu => by simp [hu])
      | insert t i m x => exact hmod _ t (fun u hu => by simp [hu])
  exact key ops [] (by simp)

/-- **C50 (partial).** In these sequences the farm controller finds a states selection for each model of each turbine. -/
theorem C50_controller_partial (ops : List Op) (hc : Careful [] ops) : controllerReads (run ops) = true := by
  unfold controllerReads
  rw [C50_models_partial ops hc, List.all_eq_true]
  intro p hp
  obtain ⟨u, hu, rfl⟩ := List.mem_map.1 hp
  simp [spec_lengths ops u hu]

/-- **C50 (layouts).** Without adding models later, all layouts give each turbine the models of the layout. -/
theorem C50_layout_models (ops : List Op) (h : ∀ op ∈ ops, ∀ t m s, op ≠ .add t m s ∧ ∀ i, op ≠ .insert t i m s) :
    view (run ops) = (spec ops).map (fun u => (u.models, u.sels)) := by
  apply C50_models_partial
  have key : ∀ (ops : List Op) (s : List SpecTurb), (∀ op ∈ ops, ∀ t m s, op ≠ .add t m s ∧ ∀ i, op ≠ .insert t i m s) → Careful s ops := by
    intro ops
    induction ops with
    | nil => intro s _; trivial
    | cons op ops ih =>
      intro s hs
      have h0 := hs op (by simp)
      have h1 := ih (specStep s op) (fun o ho => hs o (by simp [ho]))
      cases op with
      | add t m x => exact absurd rfl (h0 t m x).1
      | insert t i m x => exact absurd rfl ((h0 t m x).2 i)
      | new ms => exact h1
      | newDefault => exact h1
      | layout ms n => exact h1
  exact key ops [] h

lemma createN_turbs (n : ℕ) (w : World) (r : ℕ) : (createN w r n).mlists = w.mlists ∧ (createN w r n).turbs.map Obj.mref = w.turbs.map Obj.mref ++ List.replicate n r := by
  induction n generalizing w with
  | zero => simp [createN]
  | succ n ih =>
    obtain ⟨h1, h2⟩ := ih (create w r)
    refine ⟨by rw [createN, h1]; rfl, ?_⟩
    rw [createN, h2, List.replicate_succ]
    simp [create]

/-- **C50 (finding, layouts).** Adding a model to one turbine of a layout adds it to all turbines of the layout: for all models, numbers of turbines and
positions. -/
theorem C50_layout_shares (ms : List String) (n t : ℕ) (m : String) (s : SSel) (ht : t < n) :
    (view (run [.layout ms n, .add t m s])).map Prod.fst = List.replicate n (ms ++ [m]) := by
  obtain ⟨h1, h2⟩ := createN_turbs n (alloc World.start ms) 1
  have h2' : ((createN (alloc World.start ms) 1 n).turbs).map Obj.mref = List.replicate n 1 := by rw [h2]; rfl
  have hlen : (createN (alloc World.start ms) 1 n).turbs.length = n := by
    have := congrArg List.length h2'; simpa using this
  have hm : ∀ o ∈ (createN (alloc World.start ms) 1 n).turbs, o.mref = 1 := by
    intro o ho
    have : o.mref ∈ List.replicate n 1 := by rw [← h2']; exact List.mem_map.2 ⟨o, ho, rfl⟩
    exact List.eq_of_mem_replicate this
  have ho : (createN (alloc World.start ms) 1 n).turbs[t]? = some (createN (alloc World.start ms) 1 n).turbs[t] := List.getElem?_eq_getElem (by omega)
  have hr : run [.layout ms n, .add t m s] = step (createN (alloc World.start ms) 1 n) (.add t m s) := rfl
  rw [hr]
  simp only [step, ho]
  have hmt := hm _ (List.getElem_mem (l := (createN (alloc World.start ms) 1 n).turbs) (n := t) (by omega))
  rw [hmt, h1]
  unfold view
  rw [List.map_map]
  apply List.ext_getElem (by simp [hlen])
  intro i hi1 hi2
  simp only [List.getElem_map, List.getElem_replicate, Function.comp]
  rw [hm _ (List.getElem_mem _)]
  simp [put, alloc, World.start]

/-- **C50 (finding, default list).** Once a model has been added to a turbine made without models, every later turbine made without models has it. -/
theorem C50_default_leaks (m : String) (s : SSel) : (view (run [.newDefault, .add 0 m s, .newDefault])).map Prod.fst = [[m], [m]] := by
  rfl

/-- **C50 (finding).** After adding a model to one of two turbines of a layout the controller has an index error at the other one. -/
theorem C50_controller_error (ms : List String) (m : String) (s : SSel) : controllerReads (run [.layout ms 2, .add 0 m s]) = false := by
  have : view (run [.layout ms 2, .add 0 m s]) = [(ms ++ [m], ms.map (fun _ => none) ++ [s]), (ms ++ [m], ms.map (fun _ => none))] := by
    simp [view, run, step, createN, create, alloc, World.start, put, List.map_const']
  unfold controllerReads
  rw [this]
  simp

/- concrete cases -/
example : Careful [] [.new ["a"], .layout ["b"] 3, .add 0 "c" none, .newDefault, .insert 0 0 "d" none] := by
  simp [Careful, specStep]
example : view (run [.new ["a"], .layout ["b"] 2, .add 0 "c" none, .insert 0 0 "d" none]) =
    [(["d", "a", "c"], [none, none, none]), (["b"], [none]), (["b"], [none])] := rfl

end Foxes.Props.TurbineObj
