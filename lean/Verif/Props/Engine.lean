import Verif.Model.Engine
/-
C07: the global engine slot.
-/
namespace Foxes.Props.Engine
open Foxes.Engine

/-- The slot and the engines' own flags agree: the slot holds `e` exactly if `e` is initialized (so
at most one engine is), and an initialized engine has been entered. -/
structure Inv (s : State) : Prop where
  slot : ∀ e, s.initialized e = true ↔ s.global = some e
  ent : ∀ e, s.initialized e = true → s.entered e = true

theorem inv_init (p : Nat → Bool) : Inv (State.init p) := ⟨by simp [State.init], by simp [State.init]⟩

theorem inv_createPool {s : State} (h : Inv s) (e : Nat) : Inv (createPool s e) := by
  unfold createPool; split
  · exact ⟨h.slot, h.ent⟩
  · exact h

theorem inv_initCore {s : State} (h : Inv s) (e : Nat) (he : s.entered e = true) : Inv (initCore s e).1 := by
  unfold initCore
  split
  · exact h
  · split
    · exact h
    · rename_i hn hg
      have hg' : s.global = none := by
        cases hh : s.global with
        | none => rfl
        | some x => simp [hh] at hg
      refine ⟨?_, ?_⟩
      · intro e'
        simp only [upd, Option.some.injEq]
        by_cases hee : e' = e
        · simp [hee]
        · rw [if_neg hee, h.slot e', hg']
          constructor
          · intro h0; cases h0
          · intro h0; exact absurd h0.symm hee
      · intro e'
        simp only [upd]
        by_cases hee : e' = e
        · intro _; rw [hee]; exact he
        · rw [if_neg hee]; exact h.ent e'

theorem inv_baseEnter {s : State} (h : Inv s) (e : Nat) : Inv (baseEnter s e).1 := by
  unfold baseEnter
  split
  · exact h
  · have h' : Inv { s with entered := upd s.entered e true } := by
      refine ⟨h.slot, ?_⟩
      intro e' he'
      simp only [upd]
      by_cases hee : e' = e
      · rw [if_pos hee]
      · rw [if_neg hee]; exact h.ent e' he'
    simp only
    split
    · exact h'
    · exact inv_initCore h' e (by simp [upd])

theorem inv_enter {s : State} (h : Inv s) (e : Nat) : Inv (enter s e).1 :=
  inv_baseEnter (inv_createPool h e) e

theorem inv_finCore {s : State} (hs : ∀ e, s.initialized e = true ↔ s.global = some e) (e : Nat)
    (hent : ∀ e', e' ≠ e → s.initialized e' = true → s.entered e' = true)
    (hno : s.initialized e = false → ∀ e', s.initialized e' = true → s.entered e' = true) : Inv (finCore s e) := by
  unfold finCore
  split
  · rename_i hi
    have hg := (hs e).1 hi
    refine ⟨?_, ?_⟩
    · intro e'
      simp only [upd]
      by_cases hee : e' = e
      · simp [hee]
      · rw [if_neg hee, hs e', hg]
        constructor
        · intro h0; exact absurd (Option.some.inj h0).symm hee
        · intro h0; cases h0
    · intro e'
      simp only [upd]
      by_cases hee : e' = e
      · simp [hee]
      · rw [if_neg hee]; exact hent e' hee
  · rename_i hi
    exact ⟨hs, hno (by simpa using hi)⟩

theorem inv_baseExit {s : State} (h : Inv s) (e : Nat) : Inv (baseExit s e).1 := by
  unfold baseExit
  split
  · by_cases hi : s.initialized e = true
    · simp only [hi, if_true]
      refine inv_finCore (s := { s with entered := upd s.entered e false }) h.slot e ?_ ?_
      · intro e' hee he'
        simp only [upd, if_neg hee]
        exact h.ent e' he'
      · intro h0; simp [hi] at h0
    · have hi' : s.initialized e = false := by simpa using hi
      simp only [hi']
      refine ⟨h.slot, ?_⟩
      intro e' he'
      show upd s.entered e false e' = true
      unfold upd
      by_cases hee : e' = e
      · subst hee; exact absurd he' hi
      · rw [if_neg hee]; exact h.ent e' he'
  · exact h

theorem inv_shutdownPool {s : State} (h : Inv s) (e : Nat) : Inv (shutdownPool s e).1 := by
  unfold shutdownPool
  repeat' split
  all_goals exact ⟨h.slot, h.ent⟩

theorem inv_exit {s : State} (h : Inv s) (e : Nat) : Inv (exit s e).1 := by
  unfold exit
  have := inv_shutdownPool h e
  split
  · rename_i s' err heq; rw [heq] at this; exact this
  · rename_i s' heq; rw [heq] at this; exact inv_baseExit this e

theorem inv_finalize {s : State} (h : Inv s) (e : Nat) : Inv (finalize s e).1 := by
  unfold finalize
  split
  · exact inv_exit h e
  · exact inv_finCore h.slot e (fun e' _ he' => h.ent e' he') (fun _ => h.ent)

theorem inv_step {s : State} (h : Inv s) (o : Op) : Inv (step s o).1 := by
  cases o with
  | enter e => exact inv_enter h e
  | exit e => exact inv_exit h e
  | initOp e =>
    simp only [step, initEngine]
    split
    · rename_i he; exact inv_initCore h e he
    · exact inv_enter h e
  | finalize e => exact inv_finalize h e
  | del e =>
    simp only [step]
    split
    · exact inv_finalize h e
    · exact h
  | reset =>
    simp only [step, resetEngine]
    split
    · exact h
    · exact inv_finalize h _

theorem inv_run {s : State} (h : Inv s) (ops : List Op) : Inv (run s ops) := by
  induction ops generalizing s with
  | nil => exact h
  | cons o ops ih => exact ih (inv_step h o)

/-- **C07 (at most one engine).** After any history of calls on any engines, at most one engine is
initialized, and the global slot holds exactly that engine. -/
theorem C07_at_most_one_engine (pooled : Nat → Bool) (ops : List Op) :
    let s := run (State.init pooled) ops
    (∀ e, s.initialized e = true ↔ s.global = some e) ∧
    (∀ e e', s.initialized e = true → s.initialized e' = true → e = e') := by
  intro s
  have h : Inv s := inv_run (inv_init pooled) ops
  refine ⟨h.slot, ?_⟩
  intro e e' he he'
  have h1 := (h.slot e).1 he
  have h2 := (h.slot e').1 he'
  rw [h1] at h2
  exact Option.some.inj h2

/-- **C07 (second engine).** While an engine `e'` is set, entering or initializing another engine
raises and leaves the slot as it is. -/
theorem C07_second_engine_raises (pooled : Nat → Bool) (ops : List Op) (e e' : Nat) (hne : e ≠ e')
    (hg : (run (State.init pooled) ops).global = some e') :
    let s := run (State.init pooled) ops
    (enter s e).2 ≠ none ∧ (enter s e).1.global = some e' ∧
    (initEngine s e).2 ≠ none ∧ (initEngine s e).1.global = some e' := by
  intro s
  have h : Inv s := inv_run (inv_init pooled) ops
  have hg : s.global = some e' := hg
  have hi : s.initialized e = false := by
    cases hh : s.initialized e with
    | false => rfl
    | true =>
      have := (h.slot e).1 hh
      rw [hg] at this
      exact absurd (Option.some.inj this).symm hne
  have hcore : ∀ t : State, t.global = some e' → t.initialized e = false →
      initCore t e = (t, some .alreadySet) := by
    intro t h1 h2; simp [initCore, h1, h2]
  have henter : (enter s e).2 ≠ none ∧ (enter s e).1.global = some e' := by
    have hc1 : (createPool s e).global = some e' := by unfold createPool; split <;> exact hg
    have hc2 : (createPool s e).initialized e = false := by unfold createPool; split <;> exact hi
    unfold enter baseEnter
    split
    · exact ⟨by simp, hc1⟩
    · have hk := hcore { createPool s e with entered := upd (createPool s e).entered e true } hc1 hc2
      simp only [hc2, hk]
      exact ⟨by simp, hc1⟩
  refine ⟨henter.1, henter.2, ?_⟩
  unfold initEngine
  split
  · rw [hcore s hg hi]; exact ⟨by simp, hg⟩
  · exact henter

/-- operations of the body of a `with` block that do not concern the engine `e` itself -/
def Foreign (e : Nat) : Op → Prop
  | .enter x => x ≠ e
  | .exit x => x ≠ e
  | .initOp x => x ≠ e
  | .finalize x => x ≠ e
  | .del x => x ≠ e
  | .reset => False

/-- what the body of the `with` block preserves -/
structure Held (s : State) (e : Nat) (L : Nat) : Prop where
  inv : Inv s
  glob : s.global = some e
  ent : s.entered e = true
  pool : s.pooled e = true → s.hasPool e = true ∧ s.poolOpen e = true ∧ s.live e = L + 1
  nopool : s.pooled e = false → s.live e = L

/-- what an operation on engine `x` leaves unchanged of another engine `e` -/
structure Frame (s t : State) (e : Nat) : Prop where
  ent : t.entered e = s.entered e
  ini : t.initialized e = s.initialized e
  pld : t.pooled e = s.pooled e
  has : t.hasPool e = s.hasPool e
  opn : t.poolOpen e = s.poolOpen e
  liv : t.live e = s.live e

theorem Frame.refl (s : State) (e : Nat) : Frame s s e := ⟨rfl, rfl, rfl, rfl, rfl, rfl⟩

theorem Frame.trans {s t u : State} {e : Nat} (h : Frame s t e) (h' : Frame t u e) : Frame s u e :=
  ⟨h'.ent.trans h.ent, h'.ini.trans h.ini, h'.pld.trans h.pld, h'.has.trans h.has, h'.opn.trans h.opn, h'.liv.trans h.liv⟩

theorem frame_createPool (s : State) {x e : Nat} (h : e ≠ x) : Frame s (createPool s x) e := by
  unfold createPool; split
  · constructor <;> simp [upd, h]
  · exact Frame.refl _ _

theorem frame_initCore (s : State) {x e : Nat} (h : e ≠ x) : Frame s (initCore s x).1 e := by
  unfold initCore; repeat' split
  all_goals constructor <;> simp [upd, h]

theorem frame_baseEnter (s : State) {x e : Nat} (h : e ≠ x) : Frame s (baseEnter s x).1 e := by
  unfold baseEnter; split
  · exact Frame.refl _ _
  · have h1 : Frame s { s with entered := upd s.entered x true } e := by constructor <;> simp [upd, h]
    simp only
    split
    · exact h1
    · exact h1.trans (frame_initCore _ h)

theorem frame_enter (s : State) {x e : Nat} (h : e ≠ x) : Frame s (enter s x).1 e :=
  (frame_createPool s h).trans (frame_baseEnter _ h)

theorem frame_finCore (s : State) {x e : Nat} (h : e ≠ x) : Frame s (finCore s x) e := by
  unfold finCore; split
  all_goals constructor <;> simp [upd, h]

theorem frame_baseExit (s : State) {x e : Nat} (h : e ≠ x) : Frame s (baseExit s x).1 e := by
  unfold baseExit; split
  · have h1 : Frame s { s with entered := upd s.entered x false } e := by constructor <;> simp [upd, h]
    simp only
    split
    · exact h1.trans (frame_finCore _ h)
    · exact h1
  · exact Frame.refl _ _

theorem frame_shutdownPool (s : State) {x e : Nat} (h : e ≠ x) : Frame s (shutdownPool s x).1 e := by
  unfold shutdownPool; repeat' split
  all_goals constructor <;> simp [upd, h]

theorem frame_exit (s : State) {x e : Nat} (h : e ≠ x) : Frame s (exit s x).1 e := by
  unfold exit
  have := frame_shutdownPool s h
  split
  · rename_i s' err heq; rw [heq] at this; exact this
  · rename_i s' heq; rw [heq] at this; exact this.trans (frame_baseExit _ h)

theorem frame_finalize (s : State) {x e : Nat} (h : e ≠ x) : Frame s (finalize s x).1 e := by
  unfold finalize; split
  · exact frame_exit s h
  · exact frame_finCore s h

theorem frame_step (s : State) {e : Nat} {o : Op} (ho : Foreign e o) : Frame s (step s o).1 e := by
  cases o with
  | reset => exact absurd ho id
  | enter x => exact frame_enter s (Ne.symm ho)
  | exit x => exact frame_exit s (Ne.symm ho)
  | finalize x => exact frame_finalize s (Ne.symm ho)
  | del x =>
    simp only [step]; split
    · exact frame_finalize s (Ne.symm ho)
    · exact Frame.refl _ _
  | initOp x =>
    simp only [step, initEngine]; split
    · exact frame_initCore s (Ne.symm ho)
    · exact frame_enter s (Ne.symm ho)

theorem held_step {s : State} {e L : Nat} (h : Held s e L) {o : Op} (ho : Foreign e o) : Held (step s o).1 e L := by
  have hf := frame_step s ho
  have hi := inv_step h.inv o
  have hie : s.initialized e = true := (h.inv.slot e).2 h.glob
  refine ⟨hi, (hi.slot e).1 (hf.ini.trans hie), hf.ent.trans h.ent, ?_, ?_⟩
  · intro hp
    rw [hf.has, hf.opn, hf.liv]; exact h.pool (hf.pld ▸ hp)
  · intro hp
    rw [hf.liv]; exact h.nopool (hf.pld ▸ hp)

/-- **C07 (`with` block).** Starting with a free slot and an engine that is not entered, a
`with engine:` block whose body does whatever it likes with *other* engines (including failing)
enters normally, exits normally and leaves the slot free, the engine reusable and no pool of workers
alive that was not alive before. -/
theorem C07_with_block_releases (pooled : Nat → Bool) (ops : List Op) (e : Nat) (body : List Op)
    (hfree : (run (State.init pooled) ops).global = none)
    (hnot : (run (State.init pooled) ops).entered e = false)
    (hbody : ∀ o ∈ body, Foreign e o) :
    let r := withBlock (run (State.init pooled) ops) e body
    r.2 = none ∧ r.1.global = none ∧ r.1.entered e = false ∧ r.1.initialized e = false ∧
      r.1.live e = (run (State.init pooled) ops).live e := by
  intro r
  generalize hs : run (State.init pooled) ops = s at *
  have h : Inv s := hs ▸ inv_run (inv_init pooled) ops
  have hi : s.initialized e = false := by
    cases hh : s.initialized e with
    | false => rfl
    | true =>
      have := (h.slot e).1 hh
      rw [hfree] at this; cases this
  obtain ⟨s1, hs1, hheld⟩ : ∃ s1, enter s e = (s1, none) ∧ Held s1 e (s.live e) := by
    refine ⟨(enter s e).1, ?_, ⟨inv_enter h e, ?_, ?_, ?_, ?_⟩⟩
    all_goals
      simp only [enter, baseEnter, createPool, initCore]
      repeat' split
      all_goals simp_all [upd]
  have hb : ∀ (b : List Op) (t : State), Held t e (s.live e) → (∀ o ∈ b, Foreign e o) → Held (run t b) e (s.live e) := by
    intro b
    induction b with
    | nil => intro t ht _; exact ht
    | cons o b ih =>
      intro t ht hf
      exact ih _ (held_step ht (hf o (by simp))) (fun o' ho' => hf o' (by simp [ho']))
  have hend := hb body s1 hheld hbody
  have hr : r = exit (run s1 body) e := by simp only [r, withBlock, hs, hs1]
  generalize run s1 body = t at *
  have hti : t.initialized e = true := (hend.inv.slot e).2 hend.glob
  have hte := hend.ent
  have htp := hend.pool
  have htn := hend.nopool
  rw [hr]
  unfold exit shutdownPool
  by_cases hpl : t.pooled e = true
  · obtain ⟨h1, h2, h3⟩ := htp hpl
    simp [hpl, h1, h2, h3, baseExit, finCore, hte, hti, upd]
  · have h3 := htn (by simpa using hpl)
    simp [hpl, h3, baseExit, finCore, hte, hti, upd]

example : (run (State.init fun _ => true) []).global = none ∧
    Foreign 0 (.enter 1) ∧ Foreign 0 (.finalize 1) := by simp [run, State.init, Foreign]

/-- **C07 (finding).** A failed attempt to enter an engine is not without trace: although the slot
becomes free again, the engine that failed cannot be entered any more ("Enter called for already
entered engine"), and a pool engine has leaked a pool. -/
theorem C07_failed_enter_leaves_trace :
    let s := run (State.init fun _ => true) [.enter 0, .enter 1, .exit 0]
    s.global = none ∧ (enter s 1).2 = some .alreadyEntered ∧ s.live 1 = 1 ∧ s.live 0 = 0 := by
  decide

/-- In general: after a failing `enter e` because another engine was set, `e` is marked as entered,
and every later `enter e` raises as long as nobody finalizes or exits `e`. -/
theorem C07_failed_enter_sticks (s : State) (e e' : Nat) (hg : s.global = some e')
    (hi : s.initialized e = false) (hent : s.entered e = false) (ops : List Op)
    (hops : ∀ o ∈ ops, ∃ x, x ≠ e ∧ (o = .enter x ∨ o = .exit x ∨ o = .finalize x ∨ o = .initOp x)) :
    (enter s e).2 = some .alreadySet ∧
    (enter (run (enter s e).1 ops) e).2 = some .alreadyEntered := by
  have h1 : (enter s e).2 = some .alreadySet ∧ (enter s e).1.entered e = true := by
    simp only [enter, baseEnter, createPool, initCore]
    repeat' split
    all_goals simp_all [upd]
  refine ⟨h1.1, ?_⟩
  have key : ∀ (ops : List Op) (t : State), t.entered e = true →
      (∀ o ∈ ops, ∃ x, x ≠ e ∧ (o = .enter x ∨ o = .exit x ∨ o = .finalize x ∨ o = .initOp x)) →
      (run t ops).entered e = true := by
    intro ops
    induction ops with
    | nil => intro t ht _; exact ht
    | cons o ops ih =>
      intro t ht hf
      refine ih _ ?_ (fun o' ho' => hf o' (by simp [ho']))
      obtain ⟨x, hx, ho⟩ := hf o (by simp)
      have hfo : Foreign e o := by rcases ho with rfl | rfl | rfl | rfl <;> exact hx
      exact (frame_step t hfo).ent.trans ht
  have h2 := key ops _ h1.2 hops
  generalize run (enter s e).1 ops = t at *
  have : (createPool t e).entered e = true := by unfold createPool; split <;> exact h2
  simp [enter, baseEnter, this]

end Foxes.Props.Engine
