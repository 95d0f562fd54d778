import Verif.Model.DefEng
import Verif.Props.Engine
import Verif.Props.Run
/-
C77: the default engine.
-/
namespace Foxes.Props.DefEng
open Foxes.DefEng
open Foxes.Engine (State Outcome upd)
open Foxes.Props.Engine (Inv inv_enter inv_exit inv_finalize inv_init)

/-! ## Which engine -/

theorem choice_process (p : Pars) (j : Job) :
    choice p j = .process ↔ √(p.nProcs : ℝ) * (500 / (j.nTurbines : ℝ)) ^ (1.5 : ℝ) ≤ (j.nStates : ℝ) ∨
      ∃ n, j.points = some n ∧ 10000 < j.nStates * n := by
  unfold choice
  cases hp : j.points with
  | none => simp
  | some n =>
    simp only [Option.some.injEq, exists_eq_left']
    split
    · rename_i h; simp [h]
    · rename_i h; simp only [reduceCtorEq, false_iff]; exact h

theorem formula_iff (n t : ℕ) (s : ℕ) (ht : 0 < t) :
    √(n : ℝ) * (500 / (t : ℝ)) ^ (1.5 : ℝ) ≤ (s : ℝ) ↔ n * 500 ^ 3 ≤ s ^ 2 * t ^ 3 := by
  have ht' : (0 : ℝ) < t := by exact_mod_cast ht
  have hx : (0 : ℝ) ≤ 500 / (t : ℝ) := by positivity
  have hpow : ((500 / (t : ℝ)) ^ (1.5 : ℝ)) ^ 2 = (500 / (t : ℝ)) ^ 3 := by
    rw [← Real.rpow_natCast, ← Real.rpow_mul hx, ← Real.rpow_natCast]
    norm_num
  have h0 : (0 : ℝ) ≤ √(n : ℝ) * (500 / (t : ℝ)) ^ (1.5 : ℝ) := by positivity
  rw [← pow_le_pow_iff_left₀ h0 (Nat.cast_nonneg s) (two_ne_zero), mul_pow, Real.sq_sqrt (Nat.cast_nonneg n), hpow, div_pow,
    ← mul_div_assoc, div_le_iff₀ (by positivity)]
  exact_mod_cast Iff.rfl

/-- **C77 (which engine).** With at least one turbine, the default engine uses the process pool exactly if the squared number of states times the
cubed number of turbines is at least `500³` times the number of processors, or if a calculation at points has more than 10000 pairs of state and
point; otherwise a single process. -/
theorem C77_choice_iff (p : Pars) (j : Job) (ht : 0 < j.nTurbines) :
    choice p j = .process ↔ p.nProcs * 500 ^ 3 ≤ j.nStates ^ 2 * j.nTurbines ^ 3 ∨ ∃ n, j.points = some n ∧ 10000 < j.nStates * n := by
  rw [choice_process, formula_iff _ _ _ ht]

/-- **C77 (larger cases).** A case that is not smaller in any respect, on at most as many processors, does not go back to a single process. -/
theorem C77_choice_mono (p q : Pars) (j k : Job) (ht : 0 < j.nTurbines) (h : choice p j = .process) (hp : q.nProcs ≤ p.nProcs)
    (hs : j.nStates ≤ k.nStates) (hn : j.nTurbines ≤ k.nTurbines) (hpt : ∀ n, j.points = some n → ∃ m, k.points = some m ∧ n ≤ m) :
    choice q k = .process := by
  rw [C77_choice_iff _ _ ht] at h
  rw [C77_choice_iff _ _ (lt_of_lt_of_le ht hn)]
  rcases h with h | ⟨n, h1, h2⟩
  · left
    calc q.nProcs * 500 ^ 3 ≤ p.nProcs * 500 ^ 3 := Nat.mul_le_mul_right _ hp
      _ ≤ _ := h
      _ ≤ _ := Nat.mul_le_mul (Nat.pow_le_pow_left hs 2) (Nat.pow_le_pow_left hn 3)
  · right
    obtain ⟨m, h3, h4⟩ := hpt n h1
    exact ⟨m, h3, lt_of_lt_of_le h2 (Nat.mul_le_mul hs h4)⟩

/-- a case: one processor, 500 turbines: from one state on; 4 processors, 100 turbines: from 23 states on -/
example : choice ⟨none, none, 1⟩ ⟨1, 500, none, false⟩ = .process ∧ choice ⟨none, none, 4⟩ ⟨22, 100, none, false⟩ = .single ∧
    choice ⟨none, none, 4⟩ ⟨23, 100, none, false⟩ = .process ∧ choice ⟨none, none, 4⟩ ⟨10, 1, some 1000, false⟩ = .single ∧
    choice ⟨none, none, 4⟩ ⟨10, 1, some 1001, false⟩ = .process := by
  have hs : ∀ p j, choice p j ≠ .process → choice p j = .single := by
    intro p j h
    cases hc : choice p j with
    | single => rfl
    | process => exact absurd hc h
  refine ⟨?_, hs _ _ ?_, ?_, hs _ _ ?_, ?_⟩ <;> (try rw [Ne]) <;> rw [C77_choice_iff _ _ (by norm_num)] <;> simp <;> norm_num

/-! ## The slot -/

/-- a default engine `e` is in the slot; numbers from `next` on are not yet used -/
structure Good (s : St) (e : ℕ) : Prop where
  inv : Inv s.eng
  glob : s.eng.global = some e
  dflt : s.isDefault e = true
  np : s.eng.pooled e = false
  lt : e < s.next
  fresh : ∀ n, s.next ≤ n → s.eng.entered n = false ∧ s.eng.live n = 0

/-- the slot is free -/
structure Free (s : St) : Prop where
  inv : Inv s.eng
  glob : s.eng.global = none
  fresh : ∀ n, s.next ≤ n → s.eng.entered n = false ∧ s.eng.live n = 0

theorem Good.ini {s : St} {e : ℕ} (h : Good s e) : s.eng.initialized e = true := (h.inv.slot e).2 h.glob
theorem Good.ent {s : St} {e : ℕ} (h : Good s e) : s.eng.entered e = true := h.inv.ent e h.ini

theorem not_ini {s : State} (h : Inv s) {n : ℕ} (hn : s.entered n = false) : s.initialized n = false := by
  cases hh : s.initialized n with
  | false => rfl
  | true => rw [h.ent n hh] at hn; cases hn

theorem finalize_good {s : St} {e : ℕ} (h : Good s e) :
    Engine.finalize s.eng e = ({ s.eng with entered := upd s.eng.entered e false, global := none, initialized := upd s.eng.initialized e false }, none) := by
  simp [Engine.finalize, h.ent, Engine.exit, Engine.shutdownPool, h.np, Engine.baseExit, h.ini, Engine.finCore]

/-- entering a new engine in a free slot, and leaving it -/
theorem enter_new {s : State} (hi : Inv s) (hg : s.global = none) {n : ℕ} (hn : s.entered n = false) (b : Bool) :
    (Engine.enter { s with pooled := upd s.pooled n b } n).2 = none ∧
    (Engine.enter { s with pooled := upd s.pooled n b } n).1.global = some n := by
  have hni := not_ini hi hn
  cases b <;> simp [Engine.enter, Engine.createPool, Engine.baseEnter, Engine.initCore, upd, hn, hni, hg]

theorem enter_exit_new {s : State} (hi : Inv s) (hg : s.global = none) {n : ℕ} (hn : s.entered n = false) (hl : s.live n = 0) (b : Bool) :
    let r := Engine.exit (Engine.enter { s with pooled := upd s.pooled n b } n).1 n
    r.2 = none ∧ r.1.global = none ∧ r.1.entered = s.entered ∧ r.1.initialized = s.initialized ∧ r.1.live = s.live ∧
      r.1.pooled = upd s.pooled n b := by
  have hni := not_ini hi hn
  have hu : ∀ {α : Type} (f : ℕ → α) (v w : α), f n = v → upd (upd f n w) n v = f := by
    intro α f v w hf; funext x; by_cases hx : x = n
    · simp [upd, hx, hf]
    · simp [upd, hx]
  cases b <;>
    simp [Engine.enter, Engine.createPool, Engine.baseEnter, Engine.initCore, upd, hn, hni, hg, Engine.exit, Engine.shutdownPool, Engine.baseExit,
      Engine.finCore, hl] <;> simp [hu, hn, hni, hl]

/-- what a calculation leaves: the other flags, and the numbers -/
structure Kept (s t : St) (e : ℕ) : Prop where
  ent : ∀ n, n ≠ e → t.eng.entered n = s.eng.entered n
  live : t.eng.live = s.eng.live
  pars : ∀ n, n < s.next → t.pars n = s.pars n
  dflt : ∀ n, n < s.next → t.isDefault n = s.isDefault n
  pooled : ∀ n, n < s.next → t.eng.pooled n = s.eng.pooled n
  next : s.next ≤ t.next

theorem inv_pooled {s : State} (h : Inv s) (f : ℕ → Bool) : Inv { s with pooled := f } := ⟨h.slot, h.ent⟩

/-- the inner engine's part, from a good state -/
theorem inner_good {s : St} {e : ℕ} (h : Good s e) (k : Kind) :
    (inner s e k).2 = (none, ⟨some k, s.pars e, some s.next⟩) ∧ Free (inner s e k).1 ∧ Kept s (inner s e k).1 e ∧
    (inner s e k).1.eng.entered e = false ∧ (inner s e k).1.next = s.next + 1 := by
  have hif := inv_finalize h.inv e
  have hf := finalize_good h
  rw [hf] at hif
  obtain ⟨hn1, hn2⟩ := h.fresh s.next le_rfl
  have hne : s.next ≠ e := fun hh => by have := h.lt; omega
  generalize hg : ({ s.eng with entered := upd s.eng.entered e false, global := none, initialized := upd s.eng.initialized e false } : State) = g at hf hif
  have hgn : g.entered s.next = false := by rw [← hg]; simp [upd, hn1]
  have hgl : g.live s.next = 0 := by rw [← hg]; exact hn2
  have hgg : g.global = none := by rw [← hg]
  obtain ⟨e1, e2⟩ := enter_new hif hgg hgn (k == .process)
  obtain ⟨x1, x2, x3, x4, x5, x6⟩ := enter_exit_new hif hgg hgn hgl (k == .process)
  have hinv := inv_exit (inv_enter (inv_pooled hif (upd g.pooled s.next (k == .process))) s.next) s.next
  have hres : inner s e k = ({ (new { s with eng := g } false (k == .process) (s.pars e)) with
      eng := (Engine.exit (Engine.enter { g with pooled := upd g.pooled s.next (k == .process) } s.next).1 s.next).1 }, none,
      ⟨some k, s.pars e, some s.next⟩) := by
    unfold inner
    rw [hf]
    simp only [new]
    cases hE : Engine.enter { g with pooled := upd g.pooled s.next (k == .process) } s.next with
    | mk g1 o =>
      rw [hE] at e1 e2 x1
      simp only at e1 e2 x1
      subst e1
      simp only [x1, e2]
  rw [hres]
  refine ⟨rfl, ⟨hinv, x2, ?_⟩, ⟨?_, ?_, ?_, ?_, ?_, ?_⟩, ?_, rfl⟩
  · intro n hn
    simp only [new] at hn
    simp only [x3, x5]
    have := h.fresh n (by omega)
    rw [← hg]
    refine ⟨?_, this.2⟩
    simp only [upd]
    split
    · rfl
    · exact this.1
  · intro n hn
    simp only [x3]
    rw [← hg]
    simp [upd, hn]
  · simp only [x5]; rw [← hg]
  · intro n hn
    simp only [new, upd]
    rw [if_neg (by omega)]
  · intro n hn
    simp only [new, upd]
    rw [if_neg (by omega)]
  · intro n hn
    simp only [x6, upd]
    rw [if_neg (by omega), ← hg]
  · simp [new]
  · simp only [x3]; rw [← hg]; simp [upd]

/-- `initialize` of a default engine that is not entered, in a free slot -/
theorem init_free {s : St} (h : Free s) {e : ℕ} (he : s.eng.entered e = false) (hd : s.isDefault e = true) (hp : s.eng.pooled e = false)
    (hl : e < s.next) :
    (Engine.initEngine s.eng e).2 = none ∧ Good { s with eng := (Engine.initEngine s.eng e).1 } e ∧
    Kept s { s with eng := (Engine.initEngine s.eng e).1 } e := by
  have hni := not_ini h.inv he
  have hr : Engine.initEngine s.eng e = ({ s.eng with entered := upd s.eng.entered e true, global := some e, initialized := upd s.eng.initialized e true }, none) := by
    simp [Engine.initEngine, he, Engine.enter, Engine.createPool, hp, Engine.baseEnter, Engine.initCore, hni, h.glob]
  have hinv : Inv (Engine.initEngine s.eng e).1 := Engine.inv_step h.inv (.initOp e)
  rw [hr] at hinv ⊢
  refine ⟨rfl, ⟨hinv, rfl, hd, hp, hl, ?_⟩, ⟨?_, rfl, fun _ _ => rfl, fun _ _ => rfl, fun _ _ => rfl, le_rfl⟩⟩
  · intro n hn
    have := h.fresh n hn
    have hl' : e < s.next := hl
    have hn' : s.next ≤ n := hn
    refine ⟨?_, this.2⟩
    simp only [upd]
    rw [if_neg (by omega)]; exact this.1
  · intro n hn
    simp [upd, hn]

theorem Kept.trans {s t u : St} {e : ℕ} (h : Kept s t e) (h' : Kept t u e) : Kept s u e :=
  ⟨fun n hn => (h'.ent n hn).trans (h.ent n hn), h'.live.trans h.live, fun n hn => (h'.pars n (lt_of_lt_of_le hn h.next)).trans (h.pars n hn),
    fun n hn => (h'.dflt n (lt_of_lt_of_le hn h.next)).trans (h.dflt n hn), fun n hn => (h'.pooled n (lt_of_lt_of_le hn h.next)).trans (h.pooled n hn),
    h.next.trans h'.next⟩

/-- a calculation that succeeds -/
theorem run_ok {s : St} {e : ℕ} (h : Good s e) (j : Job) (ht : 0 < j.nTurbines) (hj : j.fails = false) :
    (runDefault s e j).2 = (.ok, some ⟨some (choice (s.pars e) j), s.pars e, some s.next⟩) ∧ Good (runDefault s e j).1 e ∧
    Kept s (runDefault s e j).1 e := by
  obtain ⟨i1, i2, i3, i4, i5⟩ := inner_good h (choice (s.pars e) j)
  obtain ⟨q1, q2, q3⟩ := init_free i2 i4 ((i3.dflt e h.lt).trans h.dflt) ((i3.pooled e h.lt).trans h.np) (lt_of_lt_of_le h.lt i3.next)
  unfold runDefault
  rw [if_neg (by omega)]
  simp only [i1, hj, q1]
  exact ⟨rfl, q2, i3.trans q3⟩

/-- a calculation that fails -/
theorem run_fail {s : St} {e : ℕ} (h : Good s e) (j : Job) (ht : 0 < j.nTurbines) (hj : j.fails = true) :
    (runDefault s e j).2 = (.calc, some ⟨some (choice (s.pars e) j), s.pars e, some s.next⟩) ∧ Free (runDefault s e j).1 ∧
    Kept s (runDefault s e j).1 e ∧ (runDefault s e j).1.eng.entered e = false := by
  obtain ⟨i1, i2, i3, i4, i5⟩ := inner_good h (choice (s.pars e) j)
  unfold runDefault
  rw [if_neg (by omega)]
  simp only [i1, hj]
  exact ⟨rfl, i2, i3, i4⟩

theorem calc_good {s : St} {e : ℕ} (h : Good s e) (cpu : ℕ) (j : Job) : calculate cpu s j = runDefault s e j := by
  unfold calculate getEngine
  rw [h.glob]
  simp only [h.dflt, if_true]

/-- **C77 (a calculation puts everything back).** With a default engine in the slot, a successful calculation of a case with turbines gives the slot
back to that engine: the same engine is there, no pool of processes is left behind, the engines' own flags and parameters are as before; and the
calculation was done by an engine of the chosen kind, with the user's chunk sizes and number of processors. While it runs, the slot holds that
inner engine and not the user's. -/
theorem C77_ok_restores (cpu : ℕ) (s : St) (e : ℕ) (h : Good s e) (j : Job) (ht : 0 < j.nTurbines) (hj : j.fails = false) :
    let r := calculate cpu s j
    r.2.1 = .ok ∧ r.2.2 = some ⟨some (choice (s.pars e) j), s.pars e, some s.next⟩ ∧ s.next ≠ e ∧
    r.1.eng.global = some e ∧ r.1.eng.live = s.eng.live ∧ r.1.eng.entered = s.eng.entered ∧ r.1.eng.initialized = s.eng.initialized ∧
    r.1.pars e = s.pars e := by
  intro r
  obtain ⟨h1, h2, h3⟩ := run_ok h j ht hj
  have hr : r = runDefault s e j := calc_good h cpu j
  rw [hr]
  refine ⟨by rw [h1], by rw [h1], by have := h.lt; omega, h2.glob, h3.live, ?_, ?_, h3.pars e h.lt⟩
  · funext n
    by_cases hn : n = e
    · rw [hn, h2.ent, h.ent]
    · exact h3.ent n hn
  · funext n
    have a := h2.inv.slot n
    have b := h.inv.slot n
    rw [h2.glob] at a
    rw [h.glob] at b
    cases hx : s.eng.initialized n <;> cases hy : (runDefault s e j).1.eng.initialized n <;> simp_all

/-- **C77 (failure).** If a model raises, the exception comes out, and the default engine is not put back: the slot is empty and the engine is no
longer entered. -/
theorem C77_fail (cpu : ℕ) (s : St) (e : ℕ) (h : Good s e) (j : Job) (ht : 0 < j.nTurbines) (hj : j.fails = true) :
    let r := calculate cpu s j
    r.2.1 = .calc ∧ r.1.eng.global = none ∧ r.1.eng.entered e = false ∧ r.1.eng.initialized e = false ∧ r.1.eng.live = s.eng.live := by
  intro r
  obtain ⟨h1, h2, h3, h4⟩ := run_fail h j ht hj
  have hr : r = runDefault s e j := calc_good h cpu j
  rw [hr]
  exact ⟨by rw [h1], h2.glob, h4, not_ini h2.inv h4, h3.live⟩

/-- **C77 (no turbines).** Without turbines the formula divides by zero; nothing else happens. -/
theorem C77_no_turbines (cpu : ℕ) (s : St) (e : ℕ) (h : Good s e) (j : Job) (ht : j.nTurbines = 0) :
    calculate cpu s j = (s, .zeroDivision, none) := by
  rw [calc_good h cpu j]
  unfold runDefault
  rw [if_pos ht]

/-! ## Scripts -/

/-- an idle interpreter: nothing in the slot, no pools -/
structure Idle (s : St) : Prop where
  free : Free s
  quiet : ∀ n, s.eng.live n = 0

theorem idle_init : Idle init := ⟨⟨inv_init _, rfl, fun _ _ => ⟨rfl, rfl⟩⟩, fun _ => rfl⟩

/-- `with DefaultEngine(p)`: the block is entered -/
theorem enter_with {s : St} (h : Free s) (p : Pars) :
    (Engine.enter (new s true false p).eng s.next).2 = none ∧
    Good { new s true false p with eng := (Engine.enter (new s true false p).eng s.next).1 } s.next ∧
    (Engine.enter (new s true false p).eng s.next).1.live = s.eng.live ∧
    (∀ n, n ≠ s.next → (Engine.enter (new s true false p).eng s.next).1.entered n = s.eng.entered n) := by
  obtain ⟨hn1, hn2⟩ := h.fresh s.next le_rfl
  have hni := not_ini h.inv hn1
  have hr : Engine.enter (new s true false p).eng s.next =
      ({ s.eng with entered := upd s.eng.entered s.next true, global := some s.next, initialized := upd s.eng.initialized s.next true, pooled := upd s.eng.pooled s.next false }, none) := by
    have hp : (upd s.eng.pooled s.next false) s.next = false := by simp [upd]
    simp [new, Engine.enter, Engine.createPool, Engine.baseEnter, Engine.initCore, hp, hni, hn1, h.glob]
  have hinv := inv_enter (inv_pooled h.inv (upd s.eng.pooled s.next false)) s.next
  have hinv' : Inv (Engine.enter (new s true false p).eng s.next).1 := hinv
  rw [hr] at hinv' ⊢
  refine ⟨rfl, ⟨hinv', rfl, by simp [new, upd], by simp [upd], by simp [new], ?_⟩, rfl, fun n hn => by simp [upd, hn]⟩
  intro n hn
  have hn' : s.next + 1 ≤ n := hn
  have := h.fresh n (by omega)
  refine ⟨?_, this.2⟩
  simp only [upd]
  rw [if_neg (by omega)]; exact this.1

theorem script_ok (cpu : ℕ) (l : List Stmt) : ∀ {s : St} {e : ℕ}, Good s e → (∀ c ∈ l, 0 < c.job.nTurbines ∧ c.job.fails = false) →
    (script cpu s l).2.1 = .ok ∧ Good (script cpu s l).1 e ∧ Kept s (script cpu s l).1 e ∧
    (script cpu s l).2.2.map (fun u => (u.kind, u.pars)) = l.map (fun c => (some (choice (s.pars e) c.job), s.pars e)) := by
  induction l with
  | nil =>
    intro s e h _
    exact ⟨rfl, h, ⟨fun _ _ => rfl, rfl, fun _ _ => rfl, fun _ _ => rfl, fun _ _ => rfl, le_rfl⟩, rfl⟩
  | cons c l ih =>
    intro s e h hl
    obtain ⟨hc1, hc2⟩ := hl c (by simp)
    obtain ⟨h1, h2, h3⟩ := run_ok h c.job hc1 hc2
    obtain ⟨i1, i2, i3, i4⟩ := ih h2 (fun c' hc' => hl c' (by simp [hc']))
    unfold script
    simp only [calc_good h cpu c.job]
    simp only [h1, true_or, if_true]
    refine ⟨i1, i2, h3.trans i3, ?_⟩
    simp only [Option.toList_some, i4, h3.pars e h.lt, List.map_cons, List.singleton_append]

theorem exit_good {s : St} {e : ℕ} (h : Good s e) :
    Engine.exit s.eng e = ({ s.eng with entered := upd s.eng.entered e false, global := none, initialized := upd s.eng.initialized e false }, none) := by
  simp [h.ent, Engine.exit, Engine.shutdownPool, h.np, Engine.baseExit, h.ini, Engine.finCore]

/-- **C77 (a block without failures).** From a free slot, a `with DefaultEngine(...)` block of calculations that do not fail ends normally, with the
slot free again and no pools left behind; every calculation was done with the user's parameters. -/
theorem C77_with_ok (cpu : ℕ) (s : St) (h : Idle s) (p : Pars) (l : List Stmt) (hl : ∀ c ∈ l, 0 < c.job.nTurbines ∧ c.job.fails = false) :
    let r := withDefault cpu s p l
    r.2.1 = .ok ∧ r.2.2.map (fun u => (u.kind, u.pars)) = l.map (fun c => (some (choice p c.job), p)) ∧
    r.1.eng.global = none ∧ (∀ n, r.1.eng.live n = 0) ∧ Idle r.1 := by
  intro r
  obtain ⟨e1, e2, e3, _⟩ := enter_with h.free p
  obtain ⟨i1, i2, i3, i4⟩ := script_ok cpu l e2 hl
  have hx := exit_good i2
  have hinv := inv_exit i2.inv s.next
  have hr : r = withDefault cpu s p l := rfl
  unfold withDefault at hr
  simp only at hr
  cases hE : Engine.enter (new s true false p).eng s.next with
  | mk g o =>
    rw [hE] at hr e1 e2 e3 i1 i2 i3 i4 hx hinv
    simp only at e1
    subst e1
    simp only [hx, i1] at hr
    rw [hr]
    have hlive : ∀ n, (script cpu { new s true false p with eng := g } l).1.eng.live n = 0 := by
      intro n
      rw [i3.live]
      show g.live n = 0
      rw [e3]; exact h.quiet n
    refine ⟨rfl, ?_, rfl, hlive, ⟨⟨?_, rfl, ?_⟩, hlive⟩⟩
    · rw [i4]
      simp [new, upd]
    · rw [hx] at hinv; exact hinv
    · intro n hn
      have := i2.fresh n hn
      refine ⟨?_, hlive n⟩
      simp only [upd]
      split
      · rfl
      · exact this.1

/-- **C77 (a failure in the block is masked).** If a calculation in a `with DefaultEngine(...)` block raises and nobody catches it there, the user
does not get that exception: leaving the block raises "Exit called for not entered engine" instead. The slot is free. -/
theorem C77_with_fail (cpu : ℕ) (s : St) (h : Idle s) (p : Pars) (l : List Stmt) (c : Stmt) (rest : List Stmt)
    (hl : ∀ c ∈ l, 0 < c.job.nTurbines ∧ c.job.fails = false) (hc : 0 < c.job.nTurbines) (hf : c.job.fails = true) (hu : c.tries = false) :
    let r := withDefault cpu s p (l ++ c :: rest)
    r.2.1 = .engine .notEntered ∧ r.1.eng.global = none ∧ r.2.2.length = l.length + 1 := by
  intro r
  obtain ⟨e1, e2, e3, _⟩ := enter_with h.free p
  have key : ∀ (l : List Stmt) {s : St} {e : ℕ}, Good s e → (∀ c ∈ l, 0 < c.job.nTurbines ∧ c.job.fails = false) →
      (script cpu s (l ++ c :: rest)).1.eng.entered e = false ∧ (script cpu s (l ++ c :: rest)).1.eng.global = none ∧
      (script cpu s (l ++ c :: rest)).1.eng.pooled e = false ∧ (script cpu s (l ++ c :: rest)).2.2.length = l.length + 1 := by
    intro l
    induction l with
    | nil =>
      intro s e hg _
      obtain ⟨h1, h2, h3, h4⟩ := run_fail hg c.job hc hf
      simp only [List.nil_append, script, calc_good hg cpu c.job, h1, hu]
      simp [h2.glob, h4, h3.pooled e hg.lt, hg.np]
    | cons d l ih =>
      intro s e hg hl
      obtain ⟨hd1, hd2⟩ := hl d (by simp)
      obtain ⟨h1, h2, h3⟩ := run_ok hg d.job hd1 hd2
      obtain ⟨i1, i2, i3, i4⟩ := ih h2 (fun c' hc' => hl c' (by simp [hc']))
      simp only [List.cons_append, script, calc_good hg cpu d.job]
      simp only [h1, true_or, if_true]
      exact ⟨i1, i2, i3, by simp [i4]⟩
  obtain ⟨k1, k2, k3, k4⟩ := key l e2 hl
  have hr : r = withDefault cpu s p (l ++ c :: rest) := rfl
  unfold withDefault at hr
  simp only at hr
  cases hE : Engine.enter (new s true false p).eng s.next with
  | mk g o =>
    rw [hE] at hr e1 e2 e3 k1 k2 k3 k4
    simp only at e1
    subst e1
    have hx : Engine.exit (script cpu { new s true false p with eng := g } (l ++ c :: rest)).1.eng s.next =
        ((script cpu { new s true false p with eng := g } (l ++ c :: rest)).1.eng, some .notEntered) := by
      simp [Engine.exit, Engine.shutdownPool, k3, Engine.baseExit, k1]
    simp only [hx] at hr
    rw [hr]
    exact ⟨rfl, k2, k4⟩

/-- without an engine: `get_engine` makes a default one -/
theorem get_free {s : St} (h : Free s) (cpu : ℕ) :
    (getEngine cpu s).2 = (s.next, none) ∧ Good (getEngine cpu s).1 s.next ∧ (getEngine cpu s).1.pars s.next = stdPars cpu ∧
    (getEngine cpu s).1.eng.live = s.eng.live ∧ (getEngine cpu s).1.next = s.next + 1 ∧
    (∀ n, n ≠ s.next → (getEngine cpu s).1.eng.entered n = s.eng.entered n) ∧
    (∀ n, n ≠ s.next → (getEngine cpu s).1.eng.pooled n = s.eng.pooled n) := by
  obtain ⟨hn1, hn2⟩ := h.fresh s.next le_rfl
  have hf : Free (new s true false (stdPars cpu)) := by
    refine ⟨inv_pooled h.inv _, h.glob, ?_⟩
    intro n hn
    have hn' : s.next + 1 ≤ n := hn
    exact h.fresh n (by omega)
  obtain ⟨q1, q2, q3⟩ := init_free hf (e := s.next) hn1 (by simp [new, upd]) (by simp [new, upd]) (by simp [new])
  unfold getEngine
  rw [h.glob]
  simp only [q1]
  refine ⟨trivial, q2, by simp [new, upd], q3.live, rfl, q3.ent, ?_⟩
  intro n hn
  have hp : (Engine.initEngine (new s true false (stdPars cpu)).eng s.next).1.pooled = upd s.eng.pooled s.next false := by
    have h0 : (upd s.eng.pooled s.next false) s.next = false := by simp [upd]
    simp [new, Engine.initEngine, Engine.enter, Engine.createPool, Engine.baseEnter, Engine.initCore, h0, hn1, not_ini h.inv hn1, h.glob]
  rw [hp]
  simp [upd, hn]

theorem calc_free {s : St} (h : Free s) (cpu : ℕ) (j : Job) : calculate cpu s j = runDefault (getEngine cpu s).1 s.next j := by
  obtain ⟨g1, g2, _⟩ := get_free h cpu
  unfold calculate
  cases hG : getEngine cpu s with
  | mk t q =>
    obtain ⟨a, b⟩ := q
    rw [hG] at g1 g2
    simp only [Prod.mk.injEq] at g1
    obtain ⟨rfl, rfl⟩ := g1
    simp only
    rw [if_pos g2.dflt]

/-- **C77 (without a block).** Without any engine, a calculation makes a default engine with no chunk sizes and all processors, which stays in the
slot after a successful calculation; after a failed one the slot is free, and the next calculation makes a new one: failures have no consequences. -/
theorem C77_no_block (cpu : ℕ) (s : St) (h : Idle s) (j : Job) (ht : 0 < j.nTurbines) :
    let r := calculate cpu s j
    r.2.1 = (if j.fails then .calc else .ok) ∧
    r.2.2.map (fun u => (u.kind, u.pars)) = some (some (choice ⟨none, none, cpu⟩ j), ⟨none, none, cpu⟩) ∧
    (∀ n, r.1.eng.live n = 0) ∧ r.1.eng.global = (if j.fails then none else some s.next) ∧ (j.fails = true → Idle r.1) := by
  intro r
  obtain ⟨g1, g2, g3, g4, g5, g6, g7⟩ := get_free h.free cpu
  have hr : r = runDefault (getEngine cpu s).1 s.next j := calc_free h.free cpu j
  rw [hr]
  cases hj : j.fails with
  | false =>
    obtain ⟨h1, h2, h3⟩ := run_ok g2 j ht hj
    refine ⟨by rw [h1]; rfl, by rw [h1, g3]; rfl, fun n => ?_, h2.glob, fun hh => by cases hh⟩
    rw [h3.live, g4]; exact h.quiet n
  | true =>
    obtain ⟨h1, h2, h3, h4⟩ := run_fail g2 j ht hj
    have hq : ∀ n, (runDefault (getEngine cpu s).1 s.next j).1.eng.live n = 0 := fun n => by rw [h3.live, g4]; exact h.quiet n
    exact ⟨by rw [h1]; rfl, by rw [h1, g3]; rfl, hq, h2.glob, fun _ => ⟨h2, hq⟩⟩

/-- **C77 (caught failures).** If the script catches the exception of a failed calculation inside the block and goes on, the user's engine is gone:
the next calculations are done by a new default engine, with no chunk sizes and all processors, whatever the user chose; leaving the block raises "Exit
called for not entered engine", and the new engine stays in the slot, so that no other engine can be entered after that. -/
theorem C77_caught (cpu : ℕ) (s : St) (h : Idle s) (p : Pars) (c : Stmt) (l : List Stmt) (hc : 0 < c.job.nTurbines) (hf : c.job.fails = true)
    (ht : c.tries = true) (hne : l ≠ []) (hl : ∀ c ∈ l, 0 < c.job.nTurbines ∧ c.job.fails = false) (q : Pars) (m : List Stmt) :
    let r := withDefault cpu s p (c :: l)
    r.2.1 = .engine .notEntered ∧
    r.2.2.map (fun u => (u.kind, u.pars)) = (some (choice p c.job), p) :: l.map (fun c => (some (choice ⟨none, none, cpu⟩ c.job), ⟨none, none, cpu⟩)) ∧
    (∃ e, r.1.eng.global = some e ∧ e ≠ s.next) ∧ (withDefault cpu r.1 q m).2 = (.engine .alreadySet, []) := by
  intro r
  obtain ⟨e1, e2, e3, e4⟩ := enter_with h.free p
  have hr : r = withDefault cpu s p (c :: l) := rfl
  unfold withDefault at hr
  simp only at hr
  cases hE : Engine.enter (new s true false p).eng s.next with
  | mk g o =>
    rw [hE] at hr e1 e2 e3 e4
    simp only at e1
    subst e1
    simp only at hr e2
    generalize ht0 : ({ new s true false p with eng := g } : St) = t0 at hr e2
    have hp0 : t0.pars s.next = p := by rw [← ht0]; simp [new, upd]
    obtain ⟨f1, f2, f3, f4⟩ := run_fail e2 c.job hc hf
    generalize ht1 : (runDefault t0 s.next c.job).1 = t1 at f2 f3 f4
    have hlt1 : s.next < t1.next := lt_of_lt_of_le e2.lt f3.next
    have hnp1 : t1.eng.pooled s.next = false := (f3.pooled _ e2.lt).trans e2.np
    cases l with
    | nil => exact absurd rfl hne
    | cons d l =>
      obtain ⟨hd1, hd2⟩ := hl d (by simp)
      obtain ⟨g1, g2, g3, g4, g5, g6, g7⟩ := get_free f2 cpu
      obtain ⟨o1, o2, o3⟩ := run_ok g2 d.job hd1 hd2
      obtain ⟨i1, i2, i3, i4⟩ := script_ok cpu l o2 (fun c' hc' => hl c' (by simp [hc']))
      have hS : script cpu t0 (c :: d :: l) = ((script cpu (runDefault (getEngine cpu t1).1 t1.next d.job).1 l).1, .ok,
          ⟨some (choice p c.job), p, some t0.next⟩ :: ⟨some (choice (stdPars cpu) d.job), stdPars cpu, some (t1.next + 1)⟩ ::
            (script cpu (runDefault (getEngine cpu t1).1 t1.next d.job).1 l).2.2) := by
        simp only [script, calc_good e2 cpu c.job, f1, ht, or_true, if_true, ht1, calc_free f2 cpu d.job, o1, true_or, i1, g3, hp0, Option.toList_some,
          List.singleton_append, g5]
      have hk := o3.trans i3
      generalize hte : (script cpu (runDefault (getEngine cpu t1).1 t1.next d.job).1 l).1 = t2 at hS i2 i3 hk
      have hent : t2.eng.entered s.next = false := by
        rw [hk.ent s.next (by omega), g6 s.next (by omega)]; exact f4
      have hnp : t2.eng.pooled s.next = false := by
        rw [hk.pooled s.next (by omega), g7 s.next (by omega)]; exact hnp1
      have hx : Engine.exit t2.eng s.next = (t2.eng, some .notEntered) := by
        simp [Engine.exit, Engine.shutdownPool, hnp, Engine.baseExit, hent]
      rw [hS] at hr
      simp only [hx] at hr
      rw [hr]
      refine ⟨rfl, ?_, ⟨t1.next, i2.glob, by omega⟩, ?_⟩
      · simp only [List.map_cons, i4, o3.pars t1.next (by omega), g3, stdPars]
      · have hn := i2.fresh t2.next le_rfl
        have hni := not_ini i2.inv hn.1
        have : Engine.enter (new { t2 with eng := t2.eng } true false q).eng t2.next =
            ({ t2.eng with pooled := upd t2.eng.pooled t2.next false, entered := upd t2.eng.entered t2.next true }, some .alreadySet) := by
          simp [new, Engine.enter, Engine.createPool, Engine.baseEnter, Engine.initCore, upd, hn.1, hni, i2.glob]
        unfold withDefault
        simp only [this]

/-- a case: a block with a failed calculation that is caught, and one more -/
example : ∃ c : Stmt, 0 < c.job.nTurbines ∧ c.job.fails = true ∧ c.tries = true ∧ Idle init :=
  ⟨⟨⟨10, 5, none, true⟩, true⟩, by decide, rfl, rfl, idle_init⟩

/-- **C77 (same results).** Whatever the choice, the numbers are the same: for a model that works state by state and point by point, the default
engine's results at points are those of the model on all states and points at once, hence those of any other engine configuration. -/
theorem C77_same_results {S T R : Type} (p : Pars) (nTurb : ℕ) (hp : 1 ≤ p.nProcs) (hs : ∀ c, p.chunkStates = some c → 1 ≤ c)
    (hc : ∀ c, p.chunkPoints = some c → 1 ≤ c) (cfg : Foxes.Chunks.Cfg) (hv : Chunks.ValidCfg cfg)
    (mdl : List S → List (List T) → List (List R)) (g : S → T → R) (hl : Run.LocalPoints mdl g)
    (md : List S) (pd : List (List T)) (nT : Nat) (hn : 1 ≤ md.length) (hlen : md.length = pd.length) (hr : Run.Rect pd nT) :
    pointResults p nTurb mdl md pd nT = some (List.zipWith (fun s ts => ts.map (g s)) md pd) ∧
    pointResults p nTurb mdl md pd nT = Foxes.Run.engineRun cfg (Foxes.Run.runPointsJob mdl md pd) md.length nT := by
  have hv0 : Chunks.ValidCfg (cfgOf p) := ⟨hp, hs, hc⟩
  obtain ⟨h1, h2⟩ := Run.C03_engines_agree (cfgOf p) cfg hv0 hv mdl g hl md pd nT hn hlen hr
  have h3 := Run.C03_points_chunking_invariant (cfgOf p) hv0 mdl g hl md pd nT hn hlen hr
  have key : pointResults p nTurb mdl md pd nT = Foxes.Run.engineRun (cfgOf p) (Foxes.Run.runPointsJob mdl md pd) md.length nT := by
    unfold pointResults
    cases choice p ⟨md.length, nTurb, some nT, false⟩ with
    | single => exact h2.symm
    | process => rfl
  exact ⟨key.trans h3, key.trans h1⟩

/-- a case: parameters that make chunks of two states and three points -/
example : (1 ≤ (⟨some 2, some 3, 4⟩ : Pars).nProcs) ∧ Run.LocalPoints (fun md pd => Run.wholePoints (fun a b : ℕ => 10 * a + b) md pd) (fun a b => 10 * a + b) :=
  ⟨by decide, fun _ _ _ => rfl⟩

end Foxes.Props.DefEng
