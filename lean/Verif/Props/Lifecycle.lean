import Verif.Proof.Lifecycle
/-
C22 (model life cycle), C23 (use after a failed calculation).
Specification vocabulary: `Reach G m k` (k is m or a nested sub-model of m), `Nested G lim` (no cycles, nesting within
Python's recursion limit), both in Verif/Proof/Lifecycle.lean.
-/
namespace Foxes.Props.Lifecycle
open Foxes.Lifecycle

variable {D : Type} {G : Graph}

/-- Objects have different names and different storage keys (`Model.__init__` numbers the instances of a class,
core/model.py:28-35). -/
structure DistinctNames (G : Graph) : Prop where
  name : Function.Injective G.name
  key : Function.Injective G.key

/-- Nothing is running and no object lacks its data; stored model data are those of the initialized objects. This is the
state of a program between calculations. -/
structure Idle (G : Graph) (s : St D) : Prop where
  run : ∀ k, s.run k = false
  own : ∀ k, (s.own k).isSome = true
  mem : ∀ k, G.key k ∈ s.mem ↔ s.init k = true

/-- **C22 (initialization).** In an idle program `initialize` of a model never fails. It loads the data of the model and of
exactly those nested sub-models that were not initialized before, each once, sub-models before the models that use them;
afterwards these are initialized, all others are as before. -/
theorem C22_initialize {lim : Nat} (hG : Nested G lim) (hd : DistinctNames G) (a m : Nat) (s : St D) (hs : Idle G s) :
    ∃ s' new, initModel G a lim m s = .ok s' ∧
      s'.loads = s.loads ++ new ∧ new.Nodup ∧
      (∀ k ∈ new, s.init k = false ∧ Reach G m k) ∧
      (∀ k, s'.init k = true ↔ s.init k = true ∨ k ∈ new) ∧
      s'.init m = true ∧
      (∀ before k after, new = before ++ k :: after → ∀ c ∈ G.subs k, s.init c = true ∨ c ∈ before) ∧
      s'.run = s.run ∧ s'.own = s.own ∧ Idle G s' := by
  obtain ⟨r, h1, h2⟩ := hG
  obtain ⟨s', new, e, p, q⟩ := init_spec h2 hd.key a lim m s (h1 m) hs.run hs.mem
  exact ⟨s', new, e, p.loads, p.nodup, fun k hk => ⟨p.fresh k hk, p.only k hk⟩, p.init, q, p.order, p.run, p.own,
    ⟨by rw [p.run]; exact hs.run, by rw [p.own]; exact hs.own, p.cons⟩⟩

/-- **C22 (finalization).** In an idle program `finalize` of a model never fails; afterwards the model and its direct
sub-models are not initialized, their stored data are gone, and nothing outside the nested sub-models changed. -/
theorem C22_finalize {lim : Nat} (hG : Nested G lim) (hd : DistinctNames G) (a m : Nat) (s : St D) (hs : Idle G s) :
    ∃ s' gone, finModel G a lim m s = .ok s' ∧
      s'.finals = s.finals ++ gone ∧ gone.Nodup ∧
      (∀ k ∈ gone, s.init k = true ∧ Reach G m k) ∧
      (∀ k, s'.init k = true ↔ s.init k = true ∧ k ∉ gone) ∧
      s'.init m = false ∧ (s.init m = true → ∀ c ∈ G.subs m, s'.init c = false) ∧
      s'.loads = s.loads ∧ Idle G s' := by
  obtain ⟨r, h1, h2⟩ := hG
  obtain ⟨s', gone, e, p, q, t⟩ := fin_spec h2 hd.key a lim m s (h1 m) hs.run hs.mem
  exact ⟨s', gone, e, p.finals, p.nodup, fun k hk => ⟨p.was k hk, p.only k hk⟩, p.init, q, t, p.loads,
    ⟨by rw [p.run]; exact hs.run, by rw [p.own]; exact hs.own, p.cons⟩⟩

/-- A history of `initialize`/`finalize` calls on arbitrary models, `true` meaning `initialize`. -/
def history (G : Graph) (a lim : Nat) : List (Bool × Nat) → St D → Res D
  | [], s => .ok s
  | (b, m) :: l, s => andThen (if b then initModel G a lim m s else finModel G a lim m s) (history G a lim l)

/-- **C22 (at most once).** In every history of `initialize` and `finalize` calls, on any models in any order, the data of a
model are loaded once per completed finalization plus once if the model is initialized at the end: never twice without a
finalization in between. -/
theorem C22_loaded_once {lim : Nat} (hG : Nested G lim) (hd : DistinctNames G) (a : Nat) :
    ∀ (h : List (Bool × Nat)) (s : St D), Idle G s →
      (∀ k, s.loads.count k = s.finals.count k + (if s.init k then 1 else 0)) →
      ∃ s', history G a lim h s = .ok s' ∧ Idle G s' ∧
        ∀ k, s'.loads.count k = s'.finals.count k + (if s'.init k then 1 else 0) := by
  intro h
  induction h with
  | nil => intro s hs hb; exact ⟨s, rfl, hs, hb⟩
  | cons x h ih =>
    intro s hs hb
    obtain ⟨b, m⟩ := x
    cases b with
    | true =>
      obtain ⟨s1, new, e, hl, hnd, hnew, hin, _, _, hr, ho, hi⟩ := C22_initialize hG hd a m s hs
      obtain ⟨r, h1, h2⟩ := hG
      have hf : s1.finals = s.finals := by
        obtain ⟨s', n', e', p, _⟩ := init_spec h2 hd.key a lim m s (h1 m) hs.run hs.mem
        rw [e] at e'; cases e'; exact p.finals
      obtain ⟨s2, e2, h2', h3⟩ := ih s1 hi (by
        intro k
        rw [hl, hf, List.count_append, hb k]
        by_cases hk : k ∈ new
        · have h0 := (hnew k hk).1
          have h1 := (hin k).2 (Or.inr hk)
          rw [h0, h1, List.count_eq_one_of_mem hnd hk]; simp
        · rw [List.count_eq_zero_of_not_mem hk]
          have : s1.init k = s.init k := by
            have := hin k
            simp only [hk, or_false] at this
            cases h0 : s1.init k <;> cases h1 : s.init k <;> simp_all
          rw [this]; omega)
      exact ⟨s2, by simp only [history, if_true, e, andThen]; exact e2, h2', h3⟩
    | false =>
      obtain ⟨s1, gone, e, hl, hnd, hg, hin, _, _, hld, hi⟩ := C22_finalize hG hd a m s hs
      obtain ⟨s2, e2, h2', h3⟩ := ih s1 hi (by
        intro k
        rw [hl, hld, List.count_append, hb k]
        by_cases hk : k ∈ gone
        · have h0 := (hg k hk).1
          have h1 : s1.init k = false := by
            by_contra hx
            exact ((hin k).1 (by simpa using hx)).2 hk
          rw [h0, h1, List.count_eq_one_of_mem hnd hk]; simp
        · rw [List.count_eq_zero_of_not_mem hk]
          have : s1.init k = s.init k := by
            have := hin k
            simp only [hk, not_false_eq_true, and_true] at this
            cases h0 : s1.init k <;> cases h1 : s.init k <;> simp_all
          rw [this]; omega)
      exact ⟨s2, by simp only [history, Bool.false_eq_true, if_false, e, andThen]; exact e2, h2', h3⟩

/-- **C22 (illegal transitions raise and change nothing).** Loading data of an initialized model; initializing, finalizing or
setting to running a model that is running; unsetting one that is not running. -/
theorem C22_illegal_raise (a lim m : Nat) (s : St D) :
    (s.init m = true → loadData m s = .error (.valueError, s)) ∧
    (s.run m = true → initModel G a (lim + 1) m s = .error (.valueError, s) ∧
      finModel G a (lim + 1) m s = .error (.valueError, s) ∧ setRunning G (lim + 1) m s = .error (.valueError, s)) ∧
    (s.run m = false → unsetRunning G (lim + 1) m s = .error (.valueError, s)) ∧
    (s.run m = false → s.init m = true → initModel G a (lim + 1) m s = .ok s) := by
  refine ⟨fun h => by simp [loadData, h], fun h => ⟨?_, ?_, ?_⟩, fun h => ?_, fun h1 h2 => ?_⟩ <;>
    simp [initModel, finModel, setRunning, unsetRunning, *]

/-- the two loops of `calc_farm` around the calculation: everything reachable is running in between, and everything is
restored in the end -/
theorem run_round_trip {lim : Nat} (hG : Nested G lim) (hd : DistinctNames G) (mdls : List Nat) (s : St D)
    (hs : Idle G s) (hm : mdls.Pairwise (fun a b => ¬ Reach G a b)) :
    ∃ s1 s2, setAll G lim mdls s = .ok s1 ∧ unsetAll G lim mdls s1 = .ok s2 ∧
      (∀ k, s1.run k = true ↔ ∃ m ∈ mdls, Reach G m k) ∧
      (∀ k, s1.run k = true → s1.own k = none) ∧ s1.init = s.init ∧
      (s2.run = s.run ∧ s2.own = s.own ∧ s2.init = s.init ∧ s2.mem = s.mem ∧ s2.loads = s.loads ∧ s2.finals = s.finals) := by
  obtain ⟨r, h1, h2⟩ := hG
  have hM : Moved G s s := ⟨fun k h => (by rw [hs.run k] at h; cases h), fun _ _ => rfl, rfl, rfl, rfl, rfl⟩
  have hC : RunClosed G s := fun k h => by rw [hs.run k] at h; cases h
  obtain ⟨s1, e1, p1, q1⟩ := setAll_spec h1 h2 hd.name hs.own mdls s hM hC (fun m _ => hs.run m) hm
  have hrun1 : ∀ k, s1.run k = true ↔ ∃ m ∈ mdls, Reach G m k := by
    intro k
    constructor
    · intro h
      rcases p1.only k h with h | h
      · rw [hs.run k] at h; cases h
      · exact h
    · rintro ⟨m, hmm, h⟩
      have := q1 m hmm
      clear hmm
      induction h with
      | refl => exact this
      | step hc _ ih => exact ih (p1.closed _ this _ hc)
  let U : Nat → Prop := fun k => ∃ m ∈ mdls, Reach G m k
  have hU : ∀ k, U k → ∀ c ∈ G.subs k, U c := by
    rintro k ⟨m, hmm, h⟩ c hc
    refine ⟨m, hmm, ?_⟩
    clear hmm
    induction h with
    | refl => exact Reach.step hc (Reach.refl _)
    | step hx _ ih => exact Reach.step hx (ih hc)
  have hoff : OffClosed G U s1 := by
    intro k huk hk
    rw [(hrun1 k).2 huk] at hk; cases hk
  obtain ⟨s2, e2, p2, q2⟩ := unsetAll_spec h1 h2 hd.name hs.own hU mdls s1 p1.moved hoff
    (fun m hmm => ⟨m, hmm, Reach.refl _⟩) q1 hm
  have hrun2 : ∀ k, s2.run k = false := by
    intro k
    by_contra hx
    have hk : s2.run k = true := by simpa using hx
    obtain ⟨m, hmm, h⟩ := (hrun1 k).1 (p2.mono k hk)
    have hmoff := q2 m hmm
    have hum : U m := ⟨m, hmm, Reach.refl _⟩
    clear hmm
    induction h with
    | refl => rw [hmoff] at hk; cases hk
    | step hc _ ih => exact ih hx hk (p2.closed _ hum hmoff _ hc) (hU _ hum _ hc)
  refine ⟨s1, s2, e1, e2, hrun1, fun k h => (p1.moved.on k h).1, p1.moved.init, ?_, ?_, p2.moved.init, p2.moved.mem,
    p2.moved.loads, p2.moved.finals⟩
  · funext k; rw [hrun2 k, hs.run k]
  · funext k; exact p2.moved.off k (hrun2 k)

/-- **C22 (running and back).** From an idle program, putting several models (none nested in an earlier one) to running and
back never fails. In between exactly these models and their nested sub-models run, without their large data;
afterwards every flag and all data are as before, also if models share sub-models. -/
theorem C22_running_and_back {lim : Nat} (hG : Nested G lim) (hd : DistinctNames G) (mdls : List Nat) (s : St D)
    (hs : Idle G s) (hm : mdls.Pairwise (fun a b => ¬ Reach G a b)) :
    ∃ s1 s2, setAll G lim mdls s = .ok s1 ∧ unsetAll G lim mdls s1 = .ok s2 ∧
      (∀ k, s1.run k = true ↔ ∃ m ∈ mdls, Reach G m k) ∧
      (∀ k, s1.run k = true → s1.own k = none) ∧
      (s2.run = s.run ∧ s2.own = s.own ∧ s2.init = s.init) := by
  obtain ⟨s1, s2, a1, a2, a3, a4, _, a5, a6, a7, _⟩ := run_round_trip hG hd mdls s hs hm
  exact ⟨s1, s2, a1, a2, a3, a4, a5, a6, a7⟩

/-! ### C23 -/

/-- **C23 (success).** A calculation that does not raise leaves the program as it was (apart from the call's own stash), so
the next call works again. -/
theorem C23_reusable_after_success {lim : Nat} (hG : Nested G lim) (hd : DistinctNames G) (a : Nat) (args : List Nat)
    (s : St D) (hs : Idle G s) (hm : (a :: args).Pairwise (fun a b => ¬ Reach G a b)) :
    ∃ s', calcFarm G lim a args true s = .ok s' ∧ Idle G s' ∧ s'.own = s.own ∧ s'.init = s.init := by
  have hs' : Idle G { s with stash := fun _ => (none : Option D) } := ⟨hs.run, hs.own, hs.mem⟩
  obtain ⟨s1, s2, a1, a2, _, _, _, b1, b2, b3, b4, _⟩ := run_round_trip hG hd (a :: args) _ hs' hm
  refine ⟨s2, ?_, ⟨?_, ?_, ?_⟩, b2, b3⟩
  · simp only [calcFarm, hs.run a, a1, andThen, a2]; simp
  · rw [b1]; exact hs.run
  · rw [b2]; exact hs.own
  · intro k; rw [b4, b3]; exact hs.mem k

/-- **C22 (same class and name).** A model is not initialised if data are stored for another one of the same class and name: a KeyError is raised, the
stored data stay. -/
theorem C22_same_key {lim : Nat} (a m : Nat) (s : St D) (ha : s.run a = false) (hr : s.run m = false) (hi : s.init m = false)
    (hs : G.subs m = []) (hk : G.key m ∈ s.mem) :
    ∃ s', initModel G a (lim + 1) m s = .error (.keyError, s') ∧ s'.mem = s.mem ∧ s'.init = s.init := by
  refine ⟨{ s with loads := s.loads ++ [m] }, ?_, rfl, rfl⟩
  simp [initModel, hr, hi, hs, forEach, andThen, loadData, storeModelData, ha, hk]

/-- **C23 (points).** The same for calculations at points: after success the algorithm is as before -/
theorem C23_points_reusable {lim : Nat} (hG : Nested G lim) (hd : DistinctNames G) (a : Nat) (s : St D) (hs : Idle G s) :
    ∃ s', calcPoints G lim a true s = .ok s' ∧ Idle G s' ∧ s'.own = s.own ∧ s'.init = s.init := by
  have hs' : Idle G { s with stash := fun _ => (none : Option D) } := ⟨hs.run, hs.own, hs.mem⟩
  obtain ⟨s1, s2, a1, a2, _, _, _, b1, b2, b3, b4, _⟩ := run_round_trip hG hd [a] _ hs' (by simp)
  have e1 : setRunning G lim a { s with stash := fun _ => (none : Option D) } = .ok s1 := by
    simp only [setAll, forEach, andThen] at a1
    revert a1; cases setRunning G lim a { s with stash := fun _ => (none : Option D) } <;> simp
  have e2 : unsetRunning G lim a s1 = .ok s2 := by
    simp only [unsetAll, forEach, andThen] at a2
    revert a2; cases unsetRunning G lim a s1 <;> simp
  refine ⟨s2, ?_, ⟨?_, ?_, ?_⟩, b2, b3⟩
  · simp only [calcPoints, hs.run a, e1, andThen, e2]; simp
  · rw [b1]; exact hs.run
  · rw [b2]; exact hs.own
  · intro k; rw [b4, b3]; exact hs.mem k

/-- **C23 (points, finding).** After a failing calculation at points every further call raises, too -/
theorem C23_points_unusable {lim : Nat} (hG : Nested G lim) (hd : DistinctNames G) (a : Nat) (s : St D) (hs : Idle G s) :
    ∃ s1, calcPoints G lim a false s = .error (.valueError, s1) ∧ s1.own a = none ∧
      ∀ c, call G lim a c s1 = .error (.valueError, s1) := by
  have hs' : Idle G { s with stash := fun _ => (none : Option D) } := ⟨hs.run, hs.own, hs.mem⟩
  obtain ⟨s1, s2, a1, _, a3, a4, _⟩ := run_round_trip hG hd [a] _ hs' (by simp)
  have e1 : setRunning G lim a { s with stash := fun _ => (none : Option D) } = .ok s1 := by
    simp only [setAll, forEach, andThen] at a1
    revert a1; cases setRunning G lim a { s with stash := fun _ => (none : Option D) } <;> simp
  have hrun : s1.run a = true := (a3 a).2 ⟨a, by simp, Reach.refl _⟩
  refine ⟨s1, by simp [calcPoints, hs.run a, e1, andThen], a4 a hrun, ?_⟩
  intro c
  cases c <;> simp [call, initAlgo, finAlgo, calcFarm, calcPoints, hrun]

/-- **C23 (finding).** If the calculation raises, the algorithm can never be used again: after any sequence of further calls,
whether or not the calculation would now succeed, every call raises and changes nothing; and the algorithm's data
(model book, data book, stored model data) are lost. -/
theorem C23_unusable_after_failure {lim : Nat} (hG : Nested G lim) (hd : DistinctNames G) (a : Nat) (args : List Nat)
    (s : St D) (hs : Idle G s) (hm : (a :: args).Pairwise (fun a b => ¬ Reach G a b)) :
    ∃ s1, calcFarm G lim a args false s = .error (.valueError, s1) ∧ s1.own a = none ∧
      ∀ calls : List Call,
        let s2 := calls.foldl (fun s c => after (call G lim a c s)) s1
        s2 = s1 ∧ ∀ c, call G lim a c s2 = .error (.valueError, s1) := by
  have hs' : Idle G { s with stash := fun _ => (none : Option D) } := ⟨hs.run, hs.own, hs.mem⟩
  obtain ⟨s1, s2, a1, _, a3, a4, _⟩ := run_round_trip hG hd (a :: args) _ hs' hm
  have hrun : s1.run a = true := (a3 a).2 ⟨a, List.mem_cons_self, Reach.refl _⟩
  have hcall : ∀ c, call G lim a c s1 = .error (.valueError, s1) := by
    intro c
    cases c <;> simp [call, initAlgo, finAlgo, calcFarm, calcPoints, hrun]
  refine ⟨s1, by simp [calcFarm, hs.run a, a1, andThen], a4 a hrun, ?_⟩
  intro calls
  have : calls.foldl (fun s c => after (call G lim a c s)) s1 = s1 := by
    induction calls with
    | nil => rfl
    | cons c l ih => rw [List.foldl_cons, hcall c]; exact ih
  exact ⟨this, fun c => by rw [this]; exact hcall c⟩

/-! ### A concrete program: algorithm 3 with states 0 and rotor 1; model list 2 (passed to calc_farm) sharing rotor 1 -/

def demoG : Graph where
  subs := fun m => if m = 3 then [0, 1] else if m = 2 then [1] else []
  name := fun m => String.ofList (List.replicate m 'x')
  key := fun m => String.ofList (List.replicate m 'y')

def demoS : St Nat where
  init := fun _ => false
  run := fun _ => false
  own := fun k => some (10 * k)
  stash := fun _ => none
  mem := []
  loads := []
  finals := []

theorem demo_names : DistinctNames demoG := by
  constructor <;>
  · intro x y h
    have := congrArg String.length h
    simpa [demoG] using this

theorem demo_nested : Nested demoG 3 :=
  ⟨fun m => if m = 3 then 2 else if m = 2 then 1 else 0, by intro m; dsimp only; split <;> (try split) <;> omega, by
    intro m c hc
    simp only [demoG] at hc
    split at hc
    · rename_i h; subst h; simp only [List.mem_cons, List.not_mem_nil, or_false] at hc
      rcases hc with rfl | rfl <;> simp
    · split at hc
      · rename_i h; subst h; simp only [List.mem_cons, List.not_mem_nil, or_false] at hc
        subst hc; simp
      · cases hc⟩

theorem demo_idle : Idle demoG demoS := ⟨fun _ => rfl, fun _ => rfl, by simp [demoS]⟩

theorem demo_pair : [3, 2].Pairwise (fun a b => ¬ Reach demoG a b) := by
  have h0 : ∀ k, ¬ (2 = k ∧ Reach demoG 0 k) := by
    rintro k ⟨rfl, h⟩; cases h with | step hc _ => simp [demoG] at hc
  have h1 : ∀ k, ¬ (2 = k ∧ Reach demoG 1 k) := by
    rintro k ⟨rfl, h⟩; cases h with | step hc _ => simp [demoG] at hc
  simp only [List.pairwise_cons, List.mem_singleton, forall_eq, List.not_mem_nil, false_imp_iff, implies_true,
    List.Pairwise.nil, and_true]
  intro h
  cases h with
  | step hc h =>
    simp only [demoG, if_true, List.mem_cons, List.not_mem_nil, or_false] at hc
    rcases hc with rfl | rfl
    · exact h0 _ ⟨rfl, h⟩
    · exact h1 _ ⟨rfl, h⟩

example := C22_initialize demo_nested demo_names 3 3 demoS demo_idle
example := C22_loaded_once demo_nested demo_names 3 [(true, 3), (true, 2), (false, 2), (true, 3), (false, 3)] demoS
  demo_idle (by intro k; simp [demoS])
example := C22_running_and_back demo_nested demo_names [3, 2] demoS demo_idle demo_pair
example := C23_reusable_after_success demo_nested demo_names 3 [2] demoS demo_idle demo_pair
example := C23_unusable_after_failure demo_nested demo_names 3 [2] demoS demo_idle demo_pair
example : (after (initModel demoG 3 3 3 demoS)).loads = [0, 1, 3] := by decide

end Foxes.Props.Lifecycle
