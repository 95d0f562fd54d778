import Verif.Model.ModelLists
import Verif.Props.Layout
import Mathlib.Tactic.Linarith
import Mathlib.Tactic.Common
/-
C74: which models run in a farm calculation, in which C74_order and with which parameters.
-/
namespace Foxes.Props.ModelLists
open Foxes.ModelLists

/-! ### Names -/

/-- after any history of constructions the i-th object is named by the number of earlier objects of the same class -/
theorem C74_name_of_history (ts : List String) (ids : Ids) (i : ℕ) (t : String) (h : ts[i]? = some t) :
    (constructAll ts ids).1[i]? = some (objName t (ids t + (ts.take i).count t)) := by
  induction ts generalizing ids i with
  | nil => simp at h
  | cons u us ih =>
    cases i with
    | zero => simp at h; subst h; simp [constructAll, construct]
    | succ j =>
      simp only [List.getElem?_cons_succ] at h
      simp only [constructAll, List.getElem?_cons_succ]
      rw [ih _ j h]
      simp only [construct, List.take_succ_cons, List.count_cons]
      by_cases hu : t = u
      · subst hu; simp; congr 1; omega
      · have hu' : (u == t) = false := by simpa using fun h => hu h.symm
        simp [hu, hu']

theorem objName_inj (t : String) (a b : ℕ) (h : objName t a = objName t b) : a = b := by
  unfold objName at h
  by_cases ha : a = 0
  · by_cases hb : b = 0
    · omega
    · rw [if_pos ha, if_neg hb] at h
      have := congrArg String.length h
      simp [String.length_append] at this
      have h2 : "_instance".length = 9 := by decide
      omega
  · by_cases hb : b = 0
    · rw [if_neg ha, if_pos hb] at h
      have := congrArg String.length h
      simp [String.length_append] at this
      have h2 : "_instance".length = 9 := by decide
      omega
    · rw [if_neg ha, if_neg hb] at h
      have h1 := congrArg String.toList h
      simp only [String.toList_append, List.append_cancel_left_eq] at h1
      have h2 : toString a = toString b := String.toList_inj.mp h1
      exact Foxes.Props.Layout.repr_inj a b h2

/-- two objects of the same class never have the same name -/
theorem C74_names_distinct (ts : List String) (ids : Ids) (i j : ℕ) (t : String) (hij : i < j) (hi : ts[i]? = some t) (hj : ts[j]? = some t) :
    (constructAll ts ids).1[i]? ≠ (constructAll ts ids).1[j]? := by
  rw [C74_name_of_history ts ids i t hi, C74_name_of_history ts ids j t hj]
  intro h
  have := objName_inj t _ _ (Option.some.inj h)
  have hc : (ts.take i).count t < (ts.take j).count t := by
    have h1 : (ts.take j) = ts.take i ++ (ts.take j).drop i := by
      conv_lhs => rw [← List.take_append_drop i (ts.take j)]
      rw [List.take_take, min_eq_left hij.le]
    rw [h1, List.count_append]
    have : t ∈ (ts.take j).drop i := by
      rw [List.mem_iff_getElem?]
      refine ⟨0, ?_⟩
      rw [List.getElem?_drop, List.getElem?_take]
      simp [hij, hi]
    have := List.count_pos_iff.mpr this
    omega
  omega

/-- the first object of a class has the name of the class -/
theorem C74_first_name (t : String) : objName t 0 = t := by simp [objName]

/-- objects of different classes can have the same name -/
theorem C74_names_can_collide : objName "A" 1 = objName "A_instance1" 0 := by decide

/-! ### Parameters -/

/-- the user's dictionaries exist already -/
def Exists (user : String → Option ℕ) (h : Heap) : Prop := ∀ n a, user n = some a → a < h.next

/-- contents of the dictionary the user gave under a name; empty if there is none -/
def given (user : String → Option ℕ) (h : Heap) (n : String) : Kw :=
  match user n with
  | some a => h.cells a
  | none => fun _ => none

/-- contents after setting one key -/
def setKey (c : Kw) (k : String) (b : Bool) : Kw := fun u => if u = k then some (.flag b) else c u

/-- the contents of a dictionary object after all settings that concern it -/
def after (user : String → Option ℕ) (es : List Entry) (x : ℕ) (c : Kw) : Kw :=
  es.foldl (fun c e => if user e.name = some x then app e.set c else c) c

theorem addPars_next (user) (es : List Entry) (h : Heap) : h.next ≤ (addPars user es h).2.next := by
  induction es generalizing h with
  | nil => simp [addPars]
  | cons e es ih =>
    simp only [addPars]
    refine le_trans ?_ (ih _)
    unfold getPars
    cases user e.name <;> simp

theorem addPars_old (user) (es : List Entry) (h : Heap) (x : ℕ) (hx : x < h.next) :
    (addPars user es h).2.cells x = after user es x (h.cells x) := by
  induction es generalizing h with
  | nil => simp [addPars, after]
  | cons e es ih =>
    simp only [addPars]
    rw [ih]
    · unfold after
      rw [List.foldl_cons]
      congr 1
      unfold getPars
      cases hu : user e.name with
      | none =>
        have : x ≠ h.next := by omega
        simp [this]
      | some a =>
        by_cases hxa : x = a
        · subst hxa; simp
        · have : ¬ a = x := fun h => hxa h.symm
          simp [hxa, this]
    · unfold getPars
      cases user e.name <;> simp <;> omega

theorem after_fresh (user) (es : List Entry) (h : Heap) (hE : Exists user h) (x : ℕ) (hx : h.next ≤ x) (c : Kw) : after user es x c = c := by
  induction es generalizing c with
  | nil => rfl
  | cons e es ih =>
    unfold after at *
    rw [List.foldl_cons, if_neg (fun hh => by have := hE _ _ hh; omega)]
    exact ih c

/-- the parameters each model of the list finds: a dictionary of the user contains everything that is set in it, also for other models -/
theorem C74_params_spec (user) (es : List Entry) (h : Heap) (hE : Exists user h) :
    (addPars user es h).1.map (addPars user es h).2.cells =
      es.map (fun e => match user e.name with
        | some a => after user es a (h.cells a)
        | none => app e.set (fun _ => none)) := by
  suffices H : ∀ (g : Heap), h.next ≤ g.next → ∀ es' : List Entry,
      (addPars user es' g).1.map (addPars user es' g).2.cells =
      es'.map (fun e => match user e.name with
        | some a => after user es' a (g.cells a)
        | none => app e.set (fun _ => none)) from H h le_rfl es
  intro g hg es'
  induction es' generalizing g with
  | nil => simp [addPars]
  | cons e es' ih =>
    simp only [addPars, List.map_cons]
    have key : ∀ (a : ℕ) (g' : Heap), user e.name = some a → g' = { g with cells := fun x => if x = a then app e.set (g.cells x) else g.cells x } →
        (∀ b, after user es' b (g'.cells b) = after user (e :: es') b (g.cells b)) := by
      intro a g' ha hg' b
      subst hg'
      unfold after
      rw [List.foldl_cons]
      congr 1
      by_cases hb : b = a
      · subst hb; simp [ha]
      · have : ¬ a = b := fun h => hb h.symm
        simp [hb, this, ha]
    cases hu : user e.name with
    | some a =>
      simp only [getPars, hu]
      have ha := hE _ _ hu
      congr 1
      · rw [addPars_old _ _ _ _ (by simp; omega)]
        exact key a _ hu rfl a
      · rw [ih _ (by simpa using hg)]
        apply List.map_congr_left
        intro e' _
        cases hu' : user e'.name with
        | none => rfl
        | some b => exact key a _ hu rfl b
    | none =>
      simp only [getPars, hu]
      congr 1
      · rw [addPars_old _ _ _ _ (by simp)]
        rw [after_fresh user es' h hE _ (by simpa using hg)]
        simp
      · rw [ih _ (by simp; omega)]
        apply List.map_congr_left
        intro e' _
        cases hu' : user e'.name with
        | none => rfl
        | some b =>
          have hb := hE _ _ hu'
          have hb' : b ≠ g.next := by omega
          simp [after, hb', hu]

/-! ### The list of a farm calculation -/

/-- the names under which the parameters of the constructed models are looked up -/
theorem entries_eq (cfg : Cfg) (ambient reorder : Bool) (ids : Ids) : entries cfg ambient reorder ids =
    [⟨.ctrl, cfg.ctrl, some ("pre_rotor", true)⟩,
     ⟨.init, objName "InitFarmData" (ids "InitFarmData"), none⟩,
     ⟨.rotor, cfg.rotor, some ("store", true)⟩,
     ⟨.ctrl, cfg.ctrl, some ("pre_rotor", false)⟩,
     ⟨.amb, objName "SetAmbFarmResults" (ids "SetAmbFarmResults"), none⟩] ++
    (if ambient then [] else [⟨.wakes, objName "FarmWakesCalculation" (ids "FarmWakesCalculation"), none⟩]) ++
    (if reorder then [⟨.reorder, objName "ReorderFarmOutput" (ids "ReorderFarmOutput"), none⟩] else []) := by
  cases ambient <;> cases reorder <;> simp [entries, classes, constructAll, construct]

/-- the models and their C74_order -/
theorem C74_order (cfg : Cfg) (ambient reorder : Bool) (ids : Ids) : (entries cfg ambient reorder ids).map Entry.kind =
    [.ctrl, .init, .rotor, .ctrl, .amb] ++ (if ambient then [] else [.wakes]) ++ (if reorder then [.reorder] else []) := by
  rw [entries_eq]; cases ambient <;> cases reorder <;> rfl

/-- the parameters each model of a calculation gets -/
theorem calls_eq (cfg : Cfg) (user) (ambient reorder : Bool) (ids : Ids) (h : Heap) (hE : Exists user h) :
    (calls cfg user ambient reorder ids h).1 = (entries cfg ambient reorder ids).mapM (fun e => call e.kind (match user e.name with
        | some a => after user (entries cfg ambient reorder ids) a (h.cells a)
        | none => app e.set (fun _ => none))) := by
  have hs := C74_params_spec user (entries cfg ambient reorder ids) h hE
  unfold calls
  simp only
  revert hs
  generalize (addPars user (entries cfg ambient reorder ids) h).2.cells = C
  generalize (addPars user (entries cfg ambient reorder ids) h).1 = A
  generalize hF : (fun e : Entry => match user e.name with
        | some a => after user (entries cfg ambient reorder ids) a (h.cells a)
        | none => app e.set (fun _ => none)) = F
  have hF' : ∀ e : Entry, (match user e.name with
        | some a => after user (entries cfg ambient reorder ids) a (h.cells a)
        | none => app e.set (fun _ => none)) = F e := fun e => by rw [← hF]
  simp only [hF']
  generalize entries cfg ambient reorder ids = es
  intro hs
  clear hF hF' hE
  induction es generalizing A with
  | nil => simp
  | cons e es ih =>
    cases A with
    | nil => simp at hs
    | cons a A =>
      simp only [List.map_cons, List.cons.injEq] at hs
      simp only [List.zip_cons_cons, List.mapM_cons, hs.1]
      rw [ih A hs.2]

/-- what a calculation does to a dictionary object that existed before, and so to the user's ones: `pre_rotor=False` stays in the one of the
controller, `store=True` in the one of the rotor model, nothing else changes in any of them -/
theorem C74_dicts_after (cfg : Cfg) (user) (ambient reorder : Bool) (ids : Ids) (h : Heap) (x : ℕ) (hx : x < h.next) (u : String) :
    (calls cfg user ambient reorder ids h).2.cells x u =
      if u = "pre_rotor" ∧ user cfg.ctrl = some x then some (.flag false)
      else if u = "store" ∧ user cfg.rotor = some x then some (.flag true)
      else h.cells x u := by
  unfold calls
  simp only
  rw [addPars_old _ _ _ _ hx, entries_eq]
  have tail : ∀ c : Kw, after user ((if ambient then [] else [⟨.wakes, objName "FarmWakesCalculation" (ids "FarmWakesCalculation"), none⟩]) ++
    (if reorder then [⟨.reorder, objName "ReorderFarmOutput" (ids "ReorderFarmOutput"), none⟩] else [])) x c = c := by
    intro c; cases ambient <;> cases reorder <;> simp [after, app]
  have hsplit : ∀ (l1 l2 : List Entry) c, after user (l1 ++ l2) x c = after user l2 x (after user l1 x c) := by
    intro l1 l2 c; simp [after]
  rw [List.append_assoc, hsplit, tail]
  have e1 : ¬ ("store" = "pre_rotor") := by decide
  have e2 : ¬ ("pre_rotor" = "store") := by decide
  by_cases hc : user cfg.ctrl = some x <;> by_cases hr : user cfg.rotor = some x <;>
    by_cases hu : u = "pre_rotor" <;> by_cases hv : u = "store" <;>
    simp [after, app, hc, hr, hu, hv] <;> simp_all

/-- the default `calc_parameters={}` changes no dictionary -/
theorem C74_default_unchanged (cfg : Cfg) (ambient reorder : Bool) (ids : Ids) (h : Heap) (x : ℕ) (hx : x < h.next) :
    (calls cfg (fun _ => none) ambient reorder ids h).2.cells x = h.cells x := by
  funext u; rw [C74_dicts_after _ _ _ _ _ _ _ hx]; simp

/-- no dictionary object is given under two names -/
def NotShared (user : String → Option ℕ) : Prop := ∀ n m a, user n = some a → user m = some a → n = m

/-- the controller and the rotor model are named differently from each other and from the constructed models -/
def Separate (cfg : Cfg) (ids : Ids) : Prop :=
  cfg.ctrl ≠ cfg.rotor ∧ ∀ t ∈ ["InitFarmData", "SetAmbFarmResults", "FarmWakesCalculation", "ReorderFarmOutput"],
    cfg.ctrl ≠ objName t (ids t) ∧ cfg.rotor ≠ objName t (ids t)

/-- `after` of the entries of a calculation, as in `C74_dicts_after` -/
theorem after_entries (cfg : Cfg) (user) (ambient reorder : Bool) (ids : Ids) (h : Heap) (x : ℕ) (hx : x < h.next) (u : String) :
    after user (entries cfg ambient reorder ids) x (h.cells x) u =
      if u = "pre_rotor" ∧ user cfg.ctrl = some x then some (.flag false)
      else if u = "store" ∧ user cfg.rotor = some x then some (.flag true)
      else h.cells x u := by
  rw [← addPars_old user _ h x hx]
  exact C74_dicts_after cfg user ambient reorder ids h x hx u

/-- the parameters of the calls, if the user shares no dictionary object. `b`: the flag `pre_rotor` of the first call of the controller -/
def documented (cfg : Cfg) (user : String → Option ℕ) (ambient reorder : Bool) (ids : Ids) (h : Heap) (b : Bool) : List (Kind × Kw) :=
  [(.ctrl, setKey (given user h cfg.ctrl) "pre_rotor" b),
   (.init, given user h (objName "InitFarmData" (ids "InitFarmData"))),
   (.rotor, setKey (given user h cfg.rotor) "store" true),
   (.ctrl, setKey (given user h cfg.ctrl) "pre_rotor" false),
   (.amb, given user h (objName "SetAmbFarmResults" (ids "SetAmbFarmResults")))] ++
  (if ambient then [] else [(.wakes, given user h (objName "FarmWakesCalculation" (ids "FarmWakesCalculation")))]) ++
  (if reorder then [(.reorder, given user h (objName "ReorderFarmOutput" (ids "ReorderFarmOutput")))] else [])

theorem other_entry (cfg : Cfg) (user) (ambient reorder : Bool) (ids : Ids) (h : Heap) (hE : Exists user h) (hN : NotShared user)
    (n : String) (h1 : cfg.ctrl ≠ n) (h2 : cfg.rotor ≠ n) :
    (match user n with
        | some a => after user (entries cfg ambient reorder ids) a (h.cells a)
        | none => app none (fun _ => none)) = given user h n := by
  unfold given
  cases hn : user n with
  | none => rfl
  | some a =>
    funext u
    show after user _ a (h.cells a) u = h.cells a u
    rw [after_entries _ _ _ _ _ _ _ (hE _ _ hn)]
    rw [if_neg (fun hh => h1 (hN _ _ _ hh.2 hn)), if_neg (fun hh => h2 (hN _ _ _ hh.2 hn))]

theorem rotor_entry (cfg : Cfg) (user) (ambient reorder : Bool) (ids : Ids) (h : Heap) (hE : Exists user h) (hN : NotShared user)
    (h1 : cfg.ctrl ≠ cfg.rotor) :
    (match user cfg.rotor with
        | some a => after user (entries cfg ambient reorder ids) a (h.cells a)
        | none => app (some ("store", true)) (fun _ => none)) = setKey (given user h cfg.rotor) "store" true := by
  unfold given
  cases hn : user cfg.rotor with
  | none => rfl
  | some a =>
    funext u
    show after user _ a (h.cells a) u = setKey (h.cells a) "store" true u
    rw [after_entries _ _ _ _ _ _ _ (hE _ _ hn)]
    rw [if_neg (fun hh => h1 (hN _ _ _ hh.2 hn))]
    by_cases hu : u = "store" <;> simp [hu, hn, setKey]

theorem ctrl_entry (cfg : Cfg) (user) (ambient reorder : Bool) (ids : Ids) (h : Heap) (hE : Exists user h) (hN : NotShared user)
    (h1 : cfg.ctrl ≠ cfg.rotor) (b : Bool) :
    (match user cfg.ctrl with
        | some a => after user (entries cfg ambient reorder ids) a (h.cells a)
        | none => app (some ("pre_rotor", b)) (fun _ => none)) =
      setKey (given user h cfg.ctrl) "pre_rotor" (if (user cfg.ctrl).isSome then false else b) := by
  unfold given
  cases hn : user cfg.ctrl with
  | none => rfl
  | some a =>
    funext u
    show after user _ a (h.cells a) u = setKey (h.cells a) "pre_rotor" false u
    rw [after_entries _ _ _ _ _ _ _ (hE _ _ hn)]
    by_cases hu : u = "pre_rotor"
    · simp [hu, hn, setKey]
    · rw [if_neg (fun hh => hu hh.1), if_neg (fun hh => h1 (hN _ _ _ hn hh.2))]
      simp [setKey, hu]

/-- the calls with their parameters: each model gets what the user gave under its name, plus the flag that the algorithm sets; however,
if the user gave anything for the controller, even an empty dictionary, then it is called twice for the models after the rotor -/
theorem C74_calls_params (cfg : Cfg) (user) (ambient reorder : Bool) (ids : Ids) (h : Heap) (hE : Exists user h) (hN : NotShared user)
    (hS : Separate cfg ids) :
    (calls cfg user ambient reorder ids h).1 =
      (documented cfg user ambient reorder ids h (!(user cfg.ctrl).isSome)).mapM (fun p => call p.1 p.2) := by
  rw [calls_eq _ _ _ _ _ _ hE]
  obtain ⟨h1, h2⟩ := hS
  have hc := ctrl_entry cfg user ambient reorder ids h hE hN h1
  have hr := rotor_entry cfg user ambient reorder ids h hE hN h1
  have ho := fun t ht => other_entry cfg user ambient reorder ids h hE hN (objName t (ids t)) (h2 t ht).1 (h2 t ht).2
  have hmap : ∀ (F : Entry → Kw) (es : List Entry), es.mapM (fun e => call e.kind (F e)) = (es.map (fun e => (e.kind, F e))).mapM (fun p => call p.1 p.2) := by
    intro F es
    induction es with
    | nil => rfl
    | cons e es ih => simp only [List.mapM_cons, List.map_cons, ih]
  rw [hmap]
  congr 1
  have hlist : ∀ F : Entry → Kw, (entries cfg ambient reorder ids).map (fun e => (e.kind, F e)) =
      [(.ctrl, F ⟨.ctrl, cfg.ctrl, some ("pre_rotor", true)⟩),
       (.init, F ⟨.init, objName "InitFarmData" (ids "InitFarmData"), none⟩),
       (.rotor, F ⟨.rotor, cfg.rotor, some ("store", true)⟩),
       (.ctrl, F ⟨.ctrl, cfg.ctrl, some ("pre_rotor", false)⟩),
       (.amb, F ⟨.amb, objName "SetAmbFarmResults" (ids "SetAmbFarmResults"), none⟩)] ++
      (if ambient then [] else [(.wakes, F ⟨.wakes, objName "FarmWakesCalculation" (ids "FarmWakesCalculation"), none⟩)]) ++
      (if reorder then [(.reorder, F ⟨.reorder, objName "ReorderFarmOutput" (ids "ReorderFarmOutput"), none⟩)] else []) := by
    intro F; rw [entries_eq]; cases ambient <;> cases reorder <;> rfl
  rw [hlist]
  unfold documented
  have c1 := hc true
  have c2 := hc false
  have o1 := ho "InitFarmData" (by simp)
  have o2 := ho "SetAmbFarmResults" (by simp)
  have o3 := ho "FarmWakesCalculation" (by simp)
  have o4 := ho "ReorderFarmOutput" (by simp)
  simp only at c1 c2 o1 o2 o3 o4 hr ⊢
  rw [c1, c2, o1, o2, o3, o4, hr]
  cases (user cfg.ctrl).isSome <;> rfl

/-- without parameters for the controller each model gets what is documented -/
theorem C74_calls_documented_partial (cfg : Cfg) (user) (ambient reorder : Bool) (ids : Ids) (h : Heap) (hE : Exists user h) (hN : NotShared user)
    (hS : Separate cfg ids) (hc : user cfg.ctrl = none) :
    (calls cfg user ambient reorder ids h).1 =
      (documented cfg user ambient reorder ids h true).mapM (fun p => call p.1 p.2) := by
  rw [C74_calls_params _ _ _ _ _ _ hE hN hS, hc]; rfl

/-- the finding: with any parameters for the controller the turbine models before the rotor never run -/
theorem C74_pre_rotor_never (cfg : Cfg) (user) (ambient reorder : Bool) (ids : Ids) (h : Heap) (hE : Exists user h) (hN : NotShared user)
    (hS : Separate cfg ids) (a : ℕ) (hc : user cfg.ctrl = some a) (l : List (Kind × Kw)) (hl : (calls cfg user ambient reorder ids h).1 = some l) :
    ∀ p ∈ l, p.1 = .ctrl → p.2 "pre_rotor" = some (.flag false) := by
  rw [C74_calls_params _ _ _ _ _ _ hE hN hS, hc] at hl
  have hm : ∀ (ps l : List (Kind × Kw)), ps.mapM (fun p => call p.1 p.2) = some l → l = ps := by
    intro ps
    induction ps with
    | nil => intro l hl; simp at hl; exact hl
    | cons p ps ih =>
      intro l hl
      rw [List.mapM_cons] at hl
      cases hp : call p.1 p.2 with
      | none => rw [hp] at hl; simp at hl
      | some q =>
        rw [hp] at hl
        cases hq : ps.mapM (fun p => call p.1 p.2) with
        | none => rw [hq] at hl; simp at hl
        | some r =>
          rw [hq] at hl
          simp at hl
          unfold call at hp
          split at hp
          · simp at hp; rw [← hl, ih r hq, ← hp]
          · simp at hp
  rw [hm _ _ hl]
  intro p hp hk
  unfold documented at hp
  simp only [List.mem_append, List.mem_cons, List.not_mem_nil, or_false] at hp
  rcases hp with ((rfl | rfl | rfl | rfl | rfl) | hp) | hp
  · simp [setKey]
  · simp at hk
  · simp at hk
  · simp [setKey]
  · simp at hk
  · split at hp
    · simp at hp
    · simp at hp; rw [hp] at hk; simp at hk
  · split at hp
    · simp at hp; rw [hp] at hk; simp at hk
    · simp at hp

theorem mapM_call_isSome (ps : List (Kind × Kw)) : (ps.mapM (fun p => call p.1 p.2)).isSome ↔ ∀ p ∈ ps, ∀ u, p.2 u ≠ none → u ∈ accepted p.1 := by
  induction ps with
  | nil => simp
  | cons p ps ih =>
    rw [List.mapM_cons]
    by_cases hp : ∀ u, p.2 u ≠ none → u ∈ accepted p.1
    · have : call p.1 p.2 = some (p.1, p.2) := if_pos hp
      rw [this]
      simp only [List.forall_mem_cons]
      rw [← ih]
      cases hq : ps.mapM (fun p => call p.1 p.2) with
      | none => simp
      | some r => simpa using hp
    · have : call p.1 p.2 = none := if_neg hp
      rw [this]
      simp only [List.forall_mem_cons]
      constructor
      · intro h; simp at h
      · intro h; exact absurd h.1 hp

theorem setKey_ok (c : Kw) (k : String) (b : Bool) (A : List String) (hk : k ∈ A) :
    (∀ u, setKey c k b u ≠ none → u ∈ A) ↔ ∀ u, c u ≠ none → u ∈ A := by
  constructor
  · intro h u hu
    apply h u
    unfold setKey
    split
    · simp
    · exact hu
  · intro h u hu
    by_cases huk : u = k
    · rw [huk]; exact hk
    · apply h u; simpa [setKey, huk] using hu

/-- when the calculation gets through all models: exactly if every dictionary the user gave for one of its models has only keys that this
model accepts; the constructed models accept none -/
theorem C74_calls_ok_iff (cfg : Cfg) (user) (ambient reorder : Bool) (ids : Ids) (h : Heap) (hE : Exists user h) (hN : NotShared user)
    (hS : Separate cfg ids) :
    ((calls cfg user ambient reorder ids h).1).isSome ↔
      (∀ u, given user h cfg.ctrl u ≠ none → u ∈ ["pre_rotor", "downwind_index"]) ∧
      (∀ u, given user h cfg.rotor u ≠ none → u ∈ ["rpoints", "rpoint_weights", "store", "downwind_index"]) ∧
      (∀ u, given user h (objName "InitFarmData" (ids "InitFarmData")) u = none) ∧
      (∀ u, given user h (objName "SetAmbFarmResults" (ids "SetAmbFarmResults")) u = none) ∧
      (ambient = false → ∀ u, given user h (objName "FarmWakesCalculation" (ids "FarmWakesCalculation")) u = none) ∧
      (reorder = true → ∀ u, given user h (objName "ReorderFarmOutput" (ids "ReorderFarmOutput")) u = none) := by
  rw [C74_calls_params _ _ _ _ _ _ hE hN hS, mapM_call_isSome]
  unfold documented
  have a1 : ∀ b, (∀ u, setKey (given user h cfg.ctrl) "pre_rotor" b u ≠ none → u ∈ accepted .ctrl) ↔
      (∀ u, given user h cfg.ctrl u ≠ none → u ∈ ["pre_rotor", "downwind_index"]) := fun b => setKey_ok _ _ _ _ (by simp [accepted])
  have a2 : (∀ u, setKey (given user h cfg.rotor) "store" true u ≠ none → u ∈ accepted .rotor) ↔
      (∀ u, given user h cfg.rotor u ≠ none → u ∈ ["rpoints", "rpoint_weights", "store", "downwind_index"]) := setKey_ok _ _ _ _ (by simp [accepted])
  cases ambient <;> cases reorder <;>
    (simp only [List.forall_mem_cons, List.forall_mem_append, a1, a2, if_true, List.cons_append, List.nil_append, List.append_nil, Bool.false_eq_true, if_false]
     simp [accepted]
     tauto)

/-- a dictionary object given for both the rotor model and the controller always fails: the controller finds `store` in it -/
theorem C74_shared_fails (cfg : Cfg) (user) (ambient reorder : Bool) (ids : Ids) (h : Heap) (hE : Exists user h) (a : ℕ)
    (h1 : user cfg.ctrl = some a) (h2 : user cfg.rotor = some a) : (calls cfg user ambient reorder ids h).1 = none := by
  rw [calls_eq _ _ _ _ _ _ hE]
  have hcall : call .ctrl (after user (entries cfg ambient reorder ids) a (h.cells a)) = none := by
    unfold call
    rw [if_neg]
    intro hh
    have := hh "store" (by rw [after_entries _ _ _ _ _ _ _ (hE _ _ h1)]; simp [h2])
    simp [accepted] at this
  have hl : ∃ tl, entries cfg ambient reorder ids = ⟨.ctrl, cfg.ctrl, some ("pre_rotor", true)⟩ :: tl := by
    rw [entries_eq]; exact ⟨_, rfl⟩
  obtain ⟨tl, htl⟩ := hl
  generalize hE' : entries cfg ambient reorder ids = E at hcall htl ⊢
  have : ∀ F : Entry → Kw, F ⟨.ctrl, cfg.ctrl, some ("pre_rotor", true)⟩ = after user E a (h.cells a) → E.mapM (fun e => call e.kind (F e)) = none := by
    intro F hF
    rw [htl, List.mapM_cons, hF, hcall]; rfl
  apply this
  simp [h1]

/-! ### Names of later calculations -/

theorem objName_ne (t s : String) (k : ℕ) (c : Char) (h1 : t.toList.head? = some c) (h2 : s.toList.head? ≠ some c) : objName t k ≠ s := by
  intro h
  have : (objName t k).toList.head? = some c := by
    unfold objName
    split
    · exact h1
    · rw [String.toList_append, String.toList_append, List.append_assoc]
      cases ht : t.toList with
      | nil => rw [ht] at h1; simp at h1
      | cons d ds => rw [ht] at h1; simpa using h1
  rw [h] at this
  exact h2 this

theorem objName_pos_ne (t : String) (k : ℕ) (hk : 0 < k) : objName t k ≠ t := by
  intro h
  have := objName_inj t k 0 (by rw [h, C74_first_name])
  omega

/-- if a wake calculation was constructed before, then parameters given under its class name have no effect at all -/
theorem C74_later_ignored (cfg : Cfg) (user user' : String → Option ℕ) (ambient reorder : Bool) (ids : Ids) (h : Heap)
    (hk : 0 < ids "FarmWakesCalculation") (hc : cfg.ctrl ≠ "FarmWakesCalculation") (hr : cfg.rotor ≠ "FarmWakesCalculation")
    (hu : ∀ n, n ≠ "FarmWakesCalculation" → user n = user' n) :
    calls cfg user ambient reorder ids h = calls cfg user' ambient reorder ids h := by
  have hn : ∀ e ∈ entries cfg ambient reorder ids, e.name ≠ "FarmWakesCalculation" := by
    intro e he
    rw [entries_eq] at he
    simp only [List.mem_append, List.mem_cons, List.not_mem_nil, or_false] at he
    rcases he with ((rfl | rfl | rfl | rfl | rfl) | he) | he
    · exact hc
    · exact objName_ne _ _ _ 'I' (by decide) (by decide)
    · exact hr
    · exact hc
    · exact objName_ne _ _ _ 'S' (by decide) (by decide)
    · split at he
      · simp at he
      · simp at he; rw [he]; exact objName_pos_ne _ _ hk
    · split at he
      · simp at he; rw [he]; exact objName_ne _ _ _ 'R' (by decide) (by decide)
      · simp at he
  have ha : ∀ (es : List Entry) (g : Heap), (∀ e ∈ es, e.name ≠ "FarmWakesCalculation") → addPars user es g = addPars user' es g := by
    intro es
    induction es with
    | nil => intros; rfl
    | cons e es ih =>
      intro g hes
      have : getPars user e.name g = getPars user' e.name g := by
        unfold getPars; rw [hu _ (hes e (by simp))]
      simp only [addPars, this]
      rw [ih _ (fun e' he' => hes e' (by simp [he']))]
  unfold calls
  simp only
  rw [ha _ _ hn]

/-- every calculation with wakes constructs one, so from the second one on the parameters are ignored -/
theorem C74_counted (reorder : Bool) (ids : Ids) : (constructAll (classes false reorder) ids).2 "FarmWakesCalculation" = ids "FarmWakesCalculation" + 1 := by
  cases reorder <;> simp [classes, constructAll, construct]

/-- a concrete case: parameters for the rotor model and the controller, distinct objects -/
example : ∃ (user : String → Option ℕ) (h : Heap) (cfg : Cfg) (ids : Ids), Exists user h ∧ NotShared user ∧ Separate cfg ids ∧
    user cfg.ctrl = some 0 ∧ user cfg.rotor = some 1 ∧ ((calls cfg user false true ids h).1).isSome := by
  refine ⟨fun n => if n = "BasicFarmController" then some 0 else if n = "centre" then some 1 else none,
    ⟨fun _ _ => none, 2⟩, ⟨"BasicFarmController", "centre"⟩, fun _ => 0, ?_, ?_, ?_, ?_, ?_, ?_⟩
  · intro n a h; simp only at h; split_ifs at h <;> simp at h <;> simp <;> omega
  · intro n m a h h'; simp only at h h'; split_ifs at h h' <;> simp_all <;> omega
  · unfold Separate; simp [C74_first_name]
  · simp
  · simp
  · rw [C74_calls_ok_iff]
    · simp [given, C74_first_name]
    · intro n a h; simp only at h; split_ifs at h <;> simp at h <;> simp <;> omega
    · intro n m a h h'; simp only at h h'; split_ifs at h h' <;> simp_all <;> omega
    · unfold Separate; simp [C74_first_name]

/-! ### Relaxation -/

/-- one model, if used -/
def opt (b : Bool) (i : Item) : List Item := if b then [i] else []

/-- the list of the first iteration for every choice of relaxation: at the start, before the rotor, after the models after the rotor, in
the wake calculation, at the end -/
theorem C74_relaxed_list (r : Relax) (ambient : Bool) (h : ambient = false ∨ r.preWake = false) : relaxed r ambient = some (
    opt r.first (.relax "first") ++ [.plain .ctrl, .plain .init] ++ opt r.preRotor (.relax "pre_rotor") ++
    [.plain .rotor, .plain .ctrl] ++ opt r.postRotor (.relax "post_rotor") ++ [.plain .amb] ++
    opt (!ambient) (if r.preWake then .relaxedWakes else .plain .wakes) ++ opt r.last (.relax "last")) := by
  obtain ⟨a, b, c, d, e⟩ := r
  revert h
  cases a <;> cases b <;> cases c <;> cases d <;> cases e <;> cases ambient <;> decide

/-- relaxation before wakes raises IndexError in calculations without wakes -/
theorem C74_relaxed_ambient_fails (r : Relax) (h : r.preWake = true) : relaxed r true = none := by
  obtain ⟨a, b, c, d, e⟩ := r
  simp only at h; subst h
  cases a <;> cases b <;> cases c <;> cases e <;> decide

/-- hence no relaxation can be used at all: the list contains a model that raises exactly if any entry point is used -/
theorem C74_relaxed_unusable (r : Relax) (ambient : Bool) :
    (∀ l, relaxed r ambient = some l → ∀ i ∈ l, itemRaises i = false) ∧ (relaxed r ambient).isSome ↔
      r.first = false ∧ r.preRotor = false ∧ r.postRotor = false ∧ r.preWake = false ∧ r.last = false := by
  by_cases h : ambient = false ∨ r.preWake = false
  · rw [C74_relaxed_list r ambient h]
    obtain ⟨a, b, c, d, e⟩ := r
    revert h
    cases a <;> cases b <;> cases c <;> cases d <;> cases e <;> cases ambient <;> simp [opt, itemRaises]
  · push Not at h
    have ha : ambient = true := by simpa using h.1
    have hw : r.preWake = true := by simpa using h.2
    rw [ha, C74_relaxed_ambient_fails r hw, hw]
    simp

/-! ### Sums of models -/

/-- calculate single models one after the other -/
def sequence {D : Type} (step : ℕ → D → Option D) : List ℕ → D → Option D
  | [], d => some d
  | i :: is, d => (step i d).bind (sequence step is)

theorem sequence_append {D : Type} (step : ℕ → D → Option D) (a b : List ℕ) (d : D) :
    sequence step (a ++ b) d = (sequence step a d).bind (sequence step b) := by
  induction a generalizing d with
  | nil => simp [sequence]
  | cons i is ih =>
    simp only [List.cons_append, sequence]
    cases step i d with
    | none => rfl
    | some x => simpa using ih x

mutual
/-- point models: any nested sum runs its single models from left to right -/
theorem C74_point_sum {D : Type} (step : ℕ → D → Option D) : ∀ (m : Mdl) (d : D), calc0 true step m d = sequence step (leaves m) d
  | .leaf i, d => by
      simp only [calc0, leaves, sequence]
      cases step i d <;> simp [sequence]
  | .list ms, d => by
      simp only [calc0, leaves, Bool.true_or, if_true]
      exact point_sums step ms d
/-- the same for lists -/
theorem point_sums {D : Type} (step : ℕ → D → Option D) : ∀ (ms : List Mdl) (d : D), calcAll true step ms d = sequence step (leavesAll ms) d
  | [], d => by simp [calcAll, leavesAll, sequence]
  | m :: ms, d => by
      simp only [calcAll, leavesAll]
      rw [sequence_append, C74_point_sum step m d]
      congr 1
      funext x
      exact point_sums step ms x
end

/-- the single models of a sum are those of the first, then those of the second -/
theorem C74_leaves_add (a b : Mdl) : leaves (add a b) = leaves a ++ leaves b := by
  cases b with
  | leaf i => simp [add, leaves, leavesAll]
  | list ms => simp [add, leaves, leavesAll]

/-- so the sum of point models is associative and runs the first, then the second -/
theorem C74_point_add {D : Type} (step : ℕ → D → Option D) (a b : Mdl) (d : D) :
    calc0 true step (add a b) d = (calc0 true step a d).bind (calc0 true step b) := by
  rw [C74_point_sum, C74_leaves_add, sequence_append, C74_point_sum]
  congr 1
  funext x
  exact (C74_point_sum step b x).symm

/-- associativity -/
theorem C74_point_add_assoc {D : Type} (step : ℕ → D → Option D) (a b c : Mdl) (d : D) :
    calc0 true step (add (add a b) c) d = calc0 true step (add a (add b c)) d := by
  simp only [C74_point_sum, C74_leaves_add, List.append_assoc]

/-- for farm models the sum of two cannot be called as a single model can -/
theorem C74_farm_sum_fails {D : Type} (step : ℕ → D → Option D) (a b : Mdl) (d : D) : calc0 false step (add a b) d = none := by
  cases b <;> simp [add, calc0]

/-- even when the outer list gets `parameters=None`, a list among its models fails; and sums are not associative: (a + b) + c always fails,
a + (b + c) runs a, b, c -/
theorem C74_farm_add_not_assoc {D : Type} (step : ℕ → D → Option D) (a b c : ℕ) (d : D) :
    (match add (add (.leaf a) (.leaf b)) (.leaf c) with | .list ms => calcAll false step ms d | _ => none) = none ∧
    (match add (.leaf a) (add (.leaf b) (.leaf c)) with | .list ms => calcAll false step ms d | _ => none) = sequence step [a, b, c] d := by
  constructor
  · simp [add, calcAll, calc0]
  · simp [add, calcAll, calc0, sequence]

/-! ### The shared default list -/

/-- append to the list of models of an object that was made without argument: every other object made without argument, before or after,
gets the model too -/
theorem C74_default_shared (s s' : Lists) (m : ℕ) : models (newList none s').1 (append (newList none s).1 m s) = s.shared ++ [m] ∧
    models (newList none s).1 (append (newList none s).1 m s) = models (newList none s).1 s ++ [m] := by
  simp [newList, models, append]

/-- objects made with a list of their own are not affected -/
theorem C74_own_unaffected (s : Lists) (m : ℕ) (i : ℕ) : models (.own i) (append .dflt m s) = models (.own i) s := by
  simp [models, append]

/-- appending to an object with its own list changes this object only -/
theorem C74_own_append (s : Lists) (l : List ℕ) (m : ℕ) (r : Ref) :
    models r (append (newList (some l) s).1 m (newList (some l) s).2) =
      match r with
      | .dflt => s.shared
      | .own i => if i = s.own.length then l ++ [m] else s.own.getD i [] := by
  cases r with
  | dflt => simp [models, newList, append]
  | own i =>
    simp only [models, newList, append]
    rw [List.getD_eq_getElem?_getD, List.getElem?_modify]
    by_cases h : i = s.own.length
    · subst h; simp
    · have h' : ¬ s.own.length = i := fun hh => h hh.symm
      simp only [h, h', if_false]
      by_cases hl : i < s.own.length
      · simp [List.getElem?_append_left hl]
      · have : s.own.length < i := by omega
        have h2 : (s.own ++ [l])[i]? = none := by rw [List.getElem?_eq_none]; simp; omega
        have h3 : s.own[i]? = none := by rw [List.getElem?_eq_none]; omega
        rw [h2, List.getD_eq_getElem?_getD, h3]; simp

/-! ### Sequential runs -/

theorem pass_nil_iff (ls : List Layer) (ks : List String) : (pass ls ks).isSome ↔
    ∀ k ∈ ks, ∃ (i : ℕ) (l : Layer), ls[i]? = some l ∧ k ∈ l.takes ∧ k ∉ l.explicit ∧ ∀ (j : ℕ) (l' : Layer), j < i → ls[j]? = some l' → k ∉ l'.explicit ∧ k ∉ l'.takes := by
  induction ls generalizing ks with
  | nil =>
    simp only [pass]
    by_cases h : ks = []
    · simp [h]
    · rw [if_neg h]
      constructor
      · intro h; simp at h
      · intro hh
        obtain ⟨k, hk⟩ := List.exists_mem_of_ne_nil _ h
        obtain ⟨i, l, hl, _⟩ := hh k hk
        simp at hl
  | cons l ls ih =>
    simp only [pass]
    by_cases hany : ks.any (fun k => l.explicit.contains k) = true
    · rw [if_pos hany]
      constructor
      · intro h; simp at h
      · intro hh
        simp only [List.any_eq_true, List.contains_iff_mem] at hany
        obtain ⟨k, hk, hke⟩ := hany
        obtain ⟨i, l', hl', ht, hne, hbef⟩ := hh k hk
        cases i with
        | zero => simp at hl'; subst hl'; exact absurd hke hne
        | succ i => exact absurd hke (hbef 0 l (by omega) (by simp)).1
    · rw [if_neg hany]
      simp only [List.any_eq_true, List.contains_iff_mem, not_exists, not_and] at hany
      rw [Option.isSome_map, ih]
      constructor
      · intro h k hk
        by_cases ht : k ∈ l.takes
        · exact ⟨0, l, by simp, ht, hany k hk, fun j _ hj => by omega⟩
        · obtain ⟨i, l', h1, h2, h3, h4⟩ := h k (by simp [hk, ht])
          refine ⟨i + 1, l', by simpa using h1, h2, h3, ?_⟩
          intro j l'' hj hl''
          cases j with
          | zero => simp at hl''; subst hl''; exact ⟨hany k hk, ht⟩
          | succ j => exact h4 j l'' (by omega) (by simpa using hl'')
      · intro h k hk
        simp at hk
        obtain ⟨i, l', h1, h2, h3, h4⟩ := h k hk.1
        cases i with
        | zero => simp at h1; subst h1; exact absurd h2 hk.2
        | succ i =>
          exact ⟨i, l', by simpa using h1, h2, h3, fun j l'' hj hl'' => h4 (j + 1) l'' (by omega) (by simpa using hl'')⟩

/-- which keyword parameters `calc_pars` of a sequential run can have: these four, not names of models -/
theorem C74_seq_accepts_iff (keys : List String) : seqAccepts keys = true ↔ ∀ k ∈ keys, k ∈ ["calc_parameters", "ambient", "normalize", "point_data"] := by
  unfold seqAccepts
  rw [pass_nil_iff]
  constructor
  · intro h k hk
    obtain ⟨i, l, hl, ht, _⟩ := h k hk
    match i, hl with
    | 0, hl => simp [seqLayers] at hl; subst hl; simp at ht
    | 1, hl => simp [seqLayers] at hl; subst hl; simp at ht ⊢; tauto
    | 2, hl => simp [seqLayers] at hl; subst hl; simp at ht
    | 3, hl => simp [seqLayers] at hl; subst hl; simp at ht
    | 4, hl => simp [seqLayers] at hl; subst hl; simp at ht ⊢; tauto
    | 5, hl => simp [seqLayers] at hl; subst hl; simp at ht ⊢; tauto
    | i + 6, hl => simp [seqLayers] at hl
  · intro h k hk
    have := h k hk
    have hj : ∀ (n : ℕ) (P : Layer → Prop), (∀ l ∈ seqLayers.take n, P l) → ∀ (j : ℕ) (l' : Layer), j < n → seqLayers[j]? = some l' → P l' := by
      intro n P hP j l' hj hl
      apply hP
      rw [List.mem_iff_getElem?]
      exact ⟨j, by rw [List.getElem?_take]; simp [hj, hl]⟩
    simp only [List.mem_cons, List.not_mem_nil, or_false] at this
    rcases this with rfl | rfl | rfl | rfl
    · exact ⟨1, _, rfl, by decide, by decide, hj 1 _ (by decide)⟩
    · exact ⟨1, _, rfl, by decide, by decide, hj 1 _ (by decide)⟩
    · exact ⟨4, _, rfl, by decide, by decide, hj 4 _ (by decide)⟩
    · exact ⟨5, _, rfl, by decide, by decide, hj 5 _ (by decide)⟩

/-- the documented format, parameters by names of models, is never accepted -/
theorem C74_seq_documented_fails (keys : List String) (m : String) (hm : m ∈ keys)
    (h : m ∉ ["calc_parameters", "ambient", "normalize", "point_data"]) : seqAccepts keys = false := by
  rw [← Bool.not_eq_true, C74_seq_accepts_iff]
  exact fun hh => h (hh m hm)

/-- a sequential run constructed with `ambient=True` calculates wakes unless `calc_pars` says `ambient` -/
theorem C74_seq_ambient_ignored (b : Bool) (pars : String → Option Bool) (h : pars "ambient" = none) : seqAmbient b pars = false := by
  simp [seqAmbient, h]

example : seqAccepts ["calc_parameters", "ambient"] = true ∧ seqAccepts ["Grid_rotor"] = false := by decide

end Foxes.Props.ModelLists
