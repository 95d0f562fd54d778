import Verif.Model.Dask
import Verif.Props.Engine
import Verif.Props.Run
import Verif.Props.Chunks
import Verif.Props.ChunkData
/-
C71: the engines that run on dask.
-/
namespace Foxes.Props.Dask
open Foxes.Dask
open Foxes.DataBox (Arr Entry Data insertKey dimNames)
open Foxes.Props.DataBox (lookup_insertKey insertKey_self lookup_of_mem mem_of_lookup)

/-! ### Life cycle -/

lemma call_eng (u : Setup) (s : Dask.State) (o : Engine.Op) : (call u s o).1.eng = (Engine.step s.eng o).1 ∧ (call u s o).2 = (Engine.step s.eng o).2 := by
  have hin : ∀ (s : Dask.State) (e : ℕ), (enter u s e).1.eng = (Engine.enter s.eng e).1 ∧ (enter u s e).2 = (Engine.enter s.eng e).2 := by
    intro s e
    simp only [enter, Engine.enter, baseEnter, Engine.baseEnter]
    split
    · exact ⟨rfl, rfl⟩
    · split
      · exact ⟨rfl, rfl⟩
      · exact ⟨rfl, rfl⟩
  have hout : ∀ (s : Dask.State) (e : ℕ), (Dask.exit u s e).1.eng = (Engine.exit s.eng e).1 ∧ (Dask.exit u s e).2 = (Engine.exit s.eng e).2 := by
    intro s e
    unfold Dask.exit Engine.exit
    cases hp : Engine.shutdownPool s.eng e with
    | mk g o =>
      cases o with
      | some x => exact ⟨rfl, rfl⟩
      | none =>
        simp only [Engine.baseExit]
        split
        · split
          · exact ⟨rfl, rfl⟩
          · exact ⟨rfl, rfl⟩
        · exact ⟨rfl, rfl⟩
  have hfin : ∀ (s : Dask.State) (e : ℕ), (Dask.finalize u s e).1.eng = (Engine.finalize s.eng e).1 ∧ (Dask.finalize u s e).2 = (Engine.finalize s.eng e).2 := by
    intro s e
    unfold Dask.finalize Engine.finalize refresh
    by_cases h : s.eng.entered e = true
    · simp only [h, if_true]
      exact hout { s with conf := u.base } e
    · simp only [h]
      exact ⟨rfl, rfl⟩
  cases o with
  | enter e => exact hin s e
  | exit e => exact hout s e
  | initOp e =>
    simp only [call, Engine.step]
    unfold initEngine Engine.initEngine
    by_cases h : s.eng.entered e = true
    · have h' : (setConf u s e).eng.entered e = true := h
      simp only [h, h', if_true]
      exact ⟨rfl, rfl⟩
    · have h' : ¬ (setConf u s e).eng.entered e = true := h
      simp only [h, h']
      exact hin (setConf u s e) e
  | finalize e => exact hfin s e
  | del e =>
    simp only [call, Engine.step]
    split
    · exact hfin s e
    · exact ⟨rfl, rfl⟩
  | reset =>
    simp only [call, Engine.step, Engine.resetEngine]
    cases s.eng.global with
    | none => exact ⟨rfl, rfl⟩
    | some e => exact hfin s e

lemma create_eng (u : Setup) (s : Dask.State) (e : ℕ) : (create u s e).eng = s.eng ∧ (create u s e).conf = s.conf := by
  unfold create
  simp only
  split
  · split <;> exact ⟨rfl, rfl⟩
  · exact ⟨rfl, rfl⟩

lemma step_eng (u : Setup) (s : Dask.State) (o : Dask.Op) : (step u s o).1.eng = s.eng ∨ ∃ o', o = .call o' ∧ (step u s o).1.eng = (Engine.step s.eng o').1 := by
  cases o with
  | create e => exact Or.inl (create_eng u s e).1
  | config k v => exact Or.inl rfl
  | call o =>
    unfold step
    simp only
    cases target o with
    | none => exact Or.inr ⟨o, rfl, (call_eng u s o).1⟩
    | some e =>
      simp only
      split
      · exact Or.inr ⟨o, rfl, (call_eng u s o).1⟩
      · exact Or.inl rfl

lemma run_inv (u : Setup) (s : Dask.State) (h : Engine.Inv s.eng) (ops : List Dask.Op) : Engine.Inv (run u s ops).eng := by
  induction ops generalizing s with
  | nil => exact h
  | cons o ops ih =>
    apply ih
    rcases step_eng u s o with e | ⟨o', _, e⟩
    · rw [e]; exact h
    · rw [e]; exact Engine.inv_step h o'

/-- **C71 (one engine).** After any session with any number of dask engines, at most one of them is initialized, and it is the global engine. -/
theorem C71_one_engine (u : Setup) (ops : List Dask.Op) (e e' : ℕ) :
    let s := run u (Dask.State.init u) ops
    (s.eng.initialized e = true ↔ s.eng.global = some e) ∧ (s.eng.initialized e = true → s.eng.initialized e' = true → e = e') := by
  intro s
  have h : Engine.Inv s.eng := run_inv u _ (Engine.inv_init _) ops
  refine ⟨h.slot e, ?_⟩
  intro h1 h2
  have a := (h.slot e).1 h1
  have b := (h.slot e').1 h2
  rw [a] at b
  exact Option.some.inj b

/-! settings -/

lemma lookup_upd (d w : Conf) (hw : (w.map Prod.fst).Nodup) (k : String) : (update d w).lookup k = (w.lookup k).or (d.lookup k) := by
  unfold update
  induction w generalizing d with
  | nil => simp
  | cons p w ih =>
    obtain ⟨a, b⟩ := p
    simp only [List.map_cons, List.nodup_cons] at hw
    rw [List.foldl_cons, ih _ hw.2, lookup_insertKey]
    by_cases h : k = a
    · subst h
      have : w.lookup k = none := ChunkData.lookup_none_of w k hw.1
      simp [this]
    · simp [List.lookup, h, beq_eq_false_iff_ne.2 h]

lemma upd_nodup (d w : Conf) (hd : (d.map Prod.fst).Nodup) : ((update d w).map Prod.fst).Nodup := by
  unfold update
  induction w generalizing d with
  | nil => exact hd
  | cons p w ih => exact ih _ (ChunkData.insertKey_keys p.1 p.2 d hd)

/-- the dictionaries of a session have unique names -/
def DictsOk (s : Dask.State) : Prop := (s.shared.map Prod.fst).Nodup ∧ ∀ e, ((s.own e).map Prod.fst).Nodup

lemma create_dicts (u : Setup) (s : Dask.State) (e : ℕ) (h : DictsOk s) : DictsOk (create u s e) := by
  unfold create
  simp only
  split
  · split
    · exact ⟨upd_nodup _ _ h.1, h.2⟩
    · refine ⟨h.1, ?_⟩
      intro x
      simp only [Engine.upd]
      split
      · exact upd_nodup _ _ (h.2 e)
      · exact h.2 x
  · exact h

/-- calls of engines leave the dictionaries alone -/
lemma call_dicts (u : Setup) (s : Dask.State) (o : Engine.Op) : (call u s o).1.shared = s.shared ∧ (call u s o).1.own = s.own ∧ (call u s o).1.created = s.created := by
  have hin : ∀ (s : Dask.State) (e : ℕ), (enter u s e).1.shared = s.shared ∧ (enter u s e).1.own = s.own ∧ (enter u s e).1.created = s.created := by
    intro s e
    simp only [enter, baseEnter]
    split
    · exact ⟨rfl, rfl, rfl⟩
    · split <;> exact ⟨rfl, rfl, rfl⟩
  have hout : ∀ (s : Dask.State) (e : ℕ), (Dask.exit u s e).1.shared = s.shared ∧ (Dask.exit u s e).1.own = s.own ∧ (Dask.exit u s e).1.created = s.created := by
    intro s e
    unfold Dask.exit
    cases hp : Engine.shutdownPool s.eng e with
    | mk g o =>
      cases o with
      | some x => exact ⟨rfl, rfl, rfl⟩
      | none =>
        simp only
        split
        · split <;> exact ⟨rfl, rfl, rfl⟩
        · exact ⟨rfl, rfl, rfl⟩
  have hfin : ∀ (s : Dask.State) (e : ℕ), (Dask.finalize u s e).1.shared = s.shared ∧ (Dask.finalize u s e).1.own = s.own ∧ (Dask.finalize u s e).1.created = s.created := by
    intro s e
    unfold Dask.finalize refresh
    by_cases h : s.eng.entered e = true
    · simp only [h, if_true]
      exact hout { s with conf := u.base } e
    · simp only [h]
      exact ⟨rfl, rfl, rfl⟩
  cases o with
  | enter e => exact hin s e
  | exit e => exact hout s e
  | initOp e =>
    simp only [call]
    unfold initEngine
    by_cases h : (setConf u s e).eng.entered e = true
    · simp only [h, if_true]
      exact ⟨rfl, rfl, rfl⟩
    · simp only [h]
      exact hin (setConf u s e) e
  | finalize e => exact hfin s e
  | del e =>
    simp only [call]
    split
    · exact hfin s e
    · exact ⟨rfl, rfl, rfl⟩
  | reset =>
    simp only [call]
    cases s.eng.global with
    | none => exact ⟨rfl, rfl, rfl⟩
    | some e => exact hfin s e

lemma step_dicts (u : Setup) (s : Dask.State) (o : Dask.Op) :
    (∃ e, o = .create e ∧ (step u s o).1 = create u s e) ∨ ((∀ e, o ≠ .create e) ∧ (step u s o).1.shared = s.shared ∧ (step u s o).1.own = s.own ∧ (step u s o).1.created = s.created) := by
  cases o with
  | create e => exact Or.inl ⟨e, rfl, rfl⟩
  | config k v => exact Or.inr ⟨by simp, rfl, rfl, rfl⟩
  | call o =>
    right
    refine ⟨by simp, ?_⟩
    unfold step
    simp only
    cases target o with
    | none => exact call_dicts u s o
    | some e =>
      simp only
      split
      · exact call_dicts u s o
      · exact ⟨rfl, rfl, rfl⟩

lemma run_dicts (u : Setup) (s : Dask.State) (h : DictsOk s) (ops : List Dask.Op) : DictsOk (run u s ops) := by
  induction ops generalizing s with
  | nil => exact h
  | cons o ops ih =>
    apply ih
    show DictsOk (step u s o).1
    rcases step_dicts u s o with ⟨e, _, he⟩ | ⟨_, a, b, _⟩
    · rw [he]; exact create_dicts u s e h
    · exact ⟨by rw [a]; exact h.1, by rw [b]; exact h.2⟩

/-- settings given to engines have unique names, as dictionaries do -/
def GivenOk (u : Setup) : Prop := ∀ e c, u.given e = some c → (c.map Prod.fst).Nodup

lemma init_dicts (u : Setup) (hu : GivenOk u) : DictsOk (Dask.State.init u) := by
  refine ⟨by simp [Dask.State.init], ?_⟩
  intro e
  simp only [Dask.State.init]
  cases h : u.given e with
  | none => simp
  | some c => simpa using hu e c h

/-- the body of a `with` block: the script does what it likes with other engines, and with the settings -/
def Foreign (e : ℕ) : Dask.Op → Prop
  | .create x => x ≠ e
  | .call o => Engine.Foreign e o
  | .config _ _ => True

lemma held_step' (u : Setup) (s : Dask.State) (e L : ℕ) (h : Engine.Held s.eng e L) (o : Dask.Op) (ho : Foreign e o) : Engine.Held (step u s o).1.eng e L := by
  rcases step_eng u s o with he | ⟨o', rfl, he⟩
  · rw [he]; exact h
  · rw [he]; exact Engine.held_step h ho

lemma enter_held (u : Setup) (s : Dask.State) (e : ℕ) (h : Engine.Inv s.eng) (hfree : s.eng.global = none) (hnot : s.eng.entered e = false) :
    (enter u s e).2 = none ∧ Engine.Held (enter u s e).1.eng e (s.eng.live e) ∧ (enter u s e).1.conf = update s.conf (dictOf u s e) := by
  have hi : s.eng.initialized e = false := by
    cases hh : s.eng.initialized e with
    | false => rfl
    | true =>
      have := (h.slot e).1 hh
      rw [hfree] at this; cases this
  have hc : (Engine.createPool s.eng e).entered e = false ∧ (Engine.createPool s.eng e).initialized e = false ∧ (Engine.createPool s.eng e).global = none := by
    unfold Engine.createPool
    split <;> exact ⟨hnot, hi, hfree⟩
  have h2 := (call_eng u s (.enter e)).1
  have h3 := (call_eng u s (.enter e)).2
  simp only [call, Engine.step] at h2 h3
  refine ⟨?_, ?_, ?_⟩
  · rw [h3]
    simp [Engine.enter, Engine.baseEnter, hc, Engine.initCore]
  · rw [h2]
    refine ⟨Engine.inv_enter h e, ?_, ?_, ?_, ?_⟩
    all_goals
      simp only [Engine.enter, Engine.baseEnter, Engine.createPool, Engine.initCore]
      repeat' split
      all_goals simp_all [Engine.upd]
  · simp only [enter, baseEnter, hc, Bool.false_eq_true, if_false, initCore, setConf]
    rfl

lemma exit_held (u : Setup) (s : Dask.State) (e L : ℕ) (h : Engine.Held s.eng e L) :
    (Dask.exit u s e).2 = none ∧ (Dask.exit u s e).1.conf = u.base ∧ (Dask.exit u s e).1.eng.global = none ∧ (Dask.exit u s e).1.eng.entered e = false ∧
      (Dask.exit u s e).1.eng.initialized e = false ∧ (Dask.exit u s e).1.eng.live e = L := by
  have hi : s.eng.initialized e = true := (h.inv.slot e).2 h.glob
  have hent := h.ent
  have hp := h.pool
  have hn := h.nopool
  unfold Dask.exit Engine.shutdownPool
  by_cases hpl : s.eng.pooled e = true
  · obtain ⟨h1, h2, h3⟩ := hp hpl
    simp [hpl, h1, h2, h3, hent, hi, finCore, refresh, Engine.finCore, Engine.upd]
  · have h3 := hn (by simpa using hpl)
    simp [hpl, h3, hent, hi, finCore, refresh, Engine.finCore, Engine.upd]

/-- **C71 (`with` block).** In any session, a `with` block of an engine that is not entered, while no engine is set, enters and exits without error, whatever the
body does with other engines: afterwards the slot is free, the engine can be used again, no cluster and no progress bar is left that was not there before, and
the settings of dask are those of its files. -/
theorem C71_with_block (u : Setup) (ops : List Dask.Op) (e : ℕ) (body : List Dask.Op) (hb : ∀ o ∈ body, Foreign e o)
    (hfree : (run u (Dask.State.init u) ops).eng.global = none) (hnot : (run u (Dask.State.init u) ops).eng.entered e = false) :
    let s := run u (Dask.State.init u) ops
    let r := withBlock u s e body
    r.2 = none ∧ r.1.conf = u.base ∧ r.1.eng.global = none ∧ r.1.eng.entered e = false ∧ r.1.eng.initialized e = false ∧ r.1.eng.live e = s.eng.live e := by
  intro s r
  have h : Engine.Inv s.eng := run_inv u _ (Engine.inv_init _) ops
  obtain ⟨a1, a2, _⟩ := enter_held u s e h hfree hnot
  have hrun : ∀ (b : List Dask.Op) (t : Dask.State), (∀ o ∈ b, Foreign e o) → Engine.Held t.eng e (s.eng.live e) → Engine.Held (run u t b).eng e (s.eng.live e) := by
    intro b
    induction b with
    | nil => intro t _ ht; exact ht
    | cons o b ih => intro t hf ht; exact ih _ (fun x hx => hf x (by simp [hx])) (held_step' u t e _ ht o (hf o (by simp)))
  have hend := hrun body _ hb a2
  have hr : r = Dask.exit u (run u (enter u s e).1 body) e := by
    show withBlock u s e body = _
    unfold withBlock
    cases hh : enter u s e with
    | mk s1 o => rw [hh] at a1; simp at a1; subst a1; rfl
  rw [hr]
  exact exit_held u _ e _ hend

/-- Inside the block the settings are those of the engine, for the names it sets, and as before for other names; what the script sets later wins. -/
theorem C71_settings_inside (u : Setup) (hu : GivenOk u) (ops : List Dask.Op) (e : ℕ) (body : List Dask.Op) (k : String)
    (hb : ∀ o ∈ body, (∃ x, o = .create x) ∨ ∃ k' v, k' ≠ k ∧ o = .config k' v)
    (hfree : (run u (Dask.State.init u) ops).eng.global = none) (hnot : (run u (Dask.State.init u) ops).eng.entered e = false) :
    let s := run u (Dask.State.init u) ops
    (run u (enter u s e).1 body).conf.lookup k = ((dictOf u s e).lookup k).or (s.conf.lookup k) := by
  intro s
  obtain ⟨_, _, a3⟩ := enter_held u s e (run_inv u _ (Engine.inv_init _) ops) hfree hnot
  have hrun : ∀ (b : List Dask.Op) (t : Dask.State), (∀ o ∈ b, (∃ x, o = .create x) ∨ ∃ k' v, k' ≠ k ∧ o = .config k' v) → (run u t b).conf.lookup k = t.conf.lookup k := by
    intro b
    induction b with
    | nil => intro t _; rfl
    | cons o b ih =>
      intro t hf
      have e1 : run u t (o :: b) = run u (step u t o).1 b := rfl
      rw [e1, ih _ (fun x hx => hf x (by simp [hx]))]
      rcases hf o (by simp) with ⟨x, rfl⟩ | ⟨k', v, hk, rfl⟩
      · show (create u t x).conf.lookup k = _
        rw [(create_eng u t x).2]
      · show (insertKey k' v t.conf).lookup k = _
        rw [lookup_insertKey, if_neg (fun h => hk h.symm)]
  rw [hrun body _ hb, a3]
  apply lookup_upd
  have hd := run_dicts u _ (init_dicts u hu) ops
  unfold dictOf
  split
  · exact hd.1
  · exact hd.2 e

/-- An engine to which the caller gave settings, and which is not a cluster engine, has exactly these settings throughout the session. -/
theorem C71_own_settings (u : Setup) (ops : List Dask.Op) (e : ℕ) (c : Conf) (hc : u.given e = some c) (hn : u.cluster e = false) :
    dictOf u (run u (Dask.State.init u) ops) e = c := by
  have hrun : ∀ (b : List Dask.Op) (t : Dask.State), t.own e = c → (run u t b).own e = c := by
    intro b
    induction b with
    | nil => intro t h; exact h
    | cons o b ih =>
      intro t h
      apply ih
      show (step u t o).1.own e = c
      rcases step_dicts u t o with ⟨x, _, hx⟩ | ⟨_, _, hx, _⟩
      · rw [hx]
        unfold create
        simp only
        split
        · rename_i hcl
          split
          · exact h
          · simp only [Engine.upd]
            split
            · rename_i _ _ hex; subst hex; rw [hn] at hcl; cases hcl
            · exact h
        · exact h
      · rw [hx]; exact h
  simp only [dictOf, hc]
  exact hrun ops _ (by simp [Dask.State.init, hc])

/-- A cluster engine to which the caller gave settings has these settings and the scheduler of the cluster, from its creation to the end of the session. -/
theorem C71_own_settings_cluster (u : Setup) (ops : List Dask.Op) (e : ℕ) (c : Conf) (hc : u.given e = some c) (hcr : .create e ∈ ops) (hcl : u.cluster e = true) (k : String) :
    (dictOf u (run u (Dask.State.init u) ops) e).lookup k =
      if k = "scheduler" then some "distributed" else if k = "distributed.scheduler.worker-ttl" then some "None" else c.lookup k := by
  have hup : ∀ d : Conf, (update d clusterConf).lookup k = if k = "scheduler" then some "distributed" else if k = "distributed.scheduler.worker-ttl" then some "None" else d.lookup k := by
    intro d
    rw [lookup_upd _ _ (by decide)]
    by_cases h1 : k = "scheduler"
    · subst h1; rfl
    · by_cases h2 : k = "distributed.scheduler.worker-ttl"
      · subst h2; rfl
      · rw [if_neg h1, if_neg h2]
        have : clusterConf.lookup k = none := by
          rw [List.lookup_eq_none_iff]
          intro p hp
          simp only [clusterConf, List.mem_cons, List.not_mem_nil, or_false] at hp
          rcases hp with rfl | rfl
          · simpa using h1
          · simpa using h2
        rw [this]; rfl
  have hone : ∀ (t : Dask.State) (o : Dask.Op), (step u t o).1.own e = t.own e ∨ (step u t o).1.own e = update (t.own e) clusterConf := by
    intro t o
    rcases step_dicts u t o with ⟨x, _, hx⟩ | ⟨_, _, hx, _⟩
    · rw [hx]
      unfold create
      simp only
      split
      · split
        · exact Or.inl rfl
        · simp only [Engine.upd]
          split
          · rename_i _ _ hex; subst hex; exact Or.inr rfl
          · exact Or.inl rfl
      · exact Or.inl rfl
    · rw [hx]; exact Or.inl rfl
  have hin : ∀ (b : List Dask.Op) (t : Dask.State), ((t.own e).lookup k = c.lookup k ∨ (t.own e).lookup k = (update c clusterConf).lookup k) →
      ((run u t b).own e).lookup k = c.lookup k ∨ ((run u t b).own e).lookup k = (update c clusterConf).lookup k := by
    intro b
    induction b with
    | nil => intro t h; exact h
    | cons o b ih =>
      intro t h
      apply ih
      show ((step u t o).1.own e).lookup k = _ ∨ ((step u t o).1.own e).lookup k = _
      rcases hone t o with hx | hx
      · rw [hx]; exact h
      · right
        rw [hx, hup, hup]
        rcases h with h | h
        · rw [h]
        · rw [h, hup]; split_ifs <;> rfl
  have hafter : ∀ (b : List Dask.Op) (t : Dask.State), (t.own e).lookup k = (update c clusterConf).lookup k → ((run u t b).own e).lookup k = (update c clusterConf).lookup k := by
    intro b
    induction b with
    | nil => intro t h; exact h
    | cons o b ih =>
      intro t h
      apply ih
      show ((step u t o).1.own e).lookup k = _
      rcases hone t o with hx | hx
      · rw [hx]; exact h
      · rw [hx, hup, h, hup]; split_ifs <;> rfl
  obtain ⟨a, b, rfl⟩ := List.append_of_mem hcr
  have h1 : run u (Dask.State.init u) (a ++ .create e :: b) = run u (create u (run u (Dask.State.init u) a) e) b := by
    simp only [run, List.foldl_append, List.foldl_cons]; rfl
  rw [h1]
  simp only [dictOf, hc]
  rw [hafter b, hup]
  have h2 : (create u (run u (Dask.State.init u) a) e).own e = update ((run u (Dask.State.init u) a).own e) clusterConf := by
    simp only [create, hcl, if_true, hc, Engine.upd]
  rw [h2, hup, hup]
  rcases hin a (Dask.State.init u) (Or.inl (by simp [Dask.State.init, hc])) with h | h
  · rw [h]
  · rw [h, hup]; split_ifs <;> rfl

/-- a case: a cluster engine with a setting of its own -/
example : dictOf { cluster := fun _ => true, bar := fun _ => false, given := fun _ => some [("num_workers", "3")], base := [] }
    (run { cluster := fun _ => true, bar := fun _ => false, given := fun _ => some [("num_workers", "3")], base := [] }
      (Dask.State.init { cluster := fun _ => true, bar := fun _ => false, given := fun _ => some [("num_workers", "3")], base := [] }) [.create 0]) 0 =
    [("num_workers", "3"), ("scheduler", "distributed"), ("distributed.scheduler.worker-ttl", "None")] := by decide

lemma shared_run (u : Setup) (P : Conf → Prop) (ops : List Dask.Op) (s : Dask.State) (h : P s.shared)
    (hs : ∀ e d, .create e ∈ ops → u.cluster e = true → u.given e = none → P d → P (update d clusterConf)) : P (run u s ops).shared := by
  induction ops generalizing s with
  | nil => exact h
  | cons o ops ih =>
    apply ih
    · show P (step u s o).1.shared
      rcases step_dicts u s o with ⟨e, rfl, he⟩ | ⟨_, a, _, _⟩
      · rw [he]
        unfold create
        simp only
        split
        · rename_i hcl
          split
          · rename_i hg
            exact hs e _ (by simp) hcl hg h
          · exact h
        · exact h
      · rw [a]; exact h
    · intro e d he; exact hs e d (by simp [he])

/-- **C71 (defaults, partial).** As long as the session creates no cluster engine without own settings, engines without own settings leave the settings of dask
as they are. -/
theorem C71_default_settings_partial (u : Setup) (ops : List Dask.Op) (e : ℕ) (he : u.given e = none)
    (hc : ∀ c, .create c ∈ ops → u.cluster c = true → u.given c ≠ none) (hfree : (run u (Dask.State.init u) ops).eng.global = none)
    (hnot : (run u (Dask.State.init u) ops).eng.entered e = false) :
    (enter u (run u (Dask.State.init u) ops) e).1.conf = (run u (Dask.State.init u) ops).conf := by
  obtain ⟨_, _, a3⟩ := enter_held u _ e (run_inv u _ (Engine.inv_init _) ops) hfree hnot
  have : (run u (Dask.State.init u) ops).shared = [] :=
    shared_run u (· = []) ops _ rfl (fun c d h1 h2 h3 _ => absurd h3 (hc c h1 h2))
  rw [a3]
  simp [dictOf, he, this, update]

/-- **C71 (finding).** Creating a cluster engine without own settings changes the defaults of all dask engines of the session: each engine without own settings,
created earlier or later, then sets the scheduler of the cluster. -/
theorem C71_default_settings_shared (u : Setup) (ops ops' : List Dask.Op) (c e : ℕ) (hcl : u.cluster c = true) (hc : u.given c = none) (he : u.given e = none)
    (hfree : (run u (Dask.State.init u) (ops ++ .create c :: ops')).eng.global = none) (hnot : (run u (Dask.State.init u) (ops ++ .create c :: ops')).eng.entered e = false)
    (hu : GivenOk u) :
    (enter u (run u (Dask.State.init u) (ops ++ .create c :: ops')) e).1.conf.lookup "scheduler" = some "distributed" := by
  set s := run u (Dask.State.init u) (ops ++ .create c :: ops') with hs
  obtain ⟨_, _, a3⟩ := enter_held u s e (run_inv u _ (Engine.inv_init _) _) hfree hnot
  have hd := run_dicts u _ (init_dicts u hu) (ops ++ .create c :: ops')
  have hup : ∀ d : Conf, (update d clusterConf).lookup "scheduler" = some "distributed" := by
    intro d
    rw [lookup_upd _ _ (by decide)]
    rfl
  have hsh : s.shared.lookup "scheduler" = some "distributed" := by
    have e1 : s = run u (create u (run u (Dask.State.init u) ops) c) ops' := by
      rw [hs]; simp only [run, List.foldl_append, List.foldl_cons]; rfl
    rw [e1]
    apply shared_run u (fun d => d.lookup "scheduler" = some "distributed") ops'
    · unfold create
      simp only [hcl, if_true, hc]
      exact hup _
    · intro _ d _ _ _ _; exact hup d
  rw [a3, lookup_upd _ _ (by unfold dictOf; rw [he]; exact hd.1)]
  simp [dictOf, he, hsh]

/-- two engines without own settings, the first one a cluster engine, the second one without progress bar -/
def exSetup : Setup := { cluster := fun e => e == 0, bar := fun e => e == 0, given := fun e => if e = 2 then some [("num_workers", "3")] else none, base := [("scheduler", "threads")] }

example : GivenOk exSetup := by
  intro e c h
  simp only [exSetup] at h
  split at h
  · simp at h; subst h; decide
  · simp at h

/-- a session that meets the hypotheses: engine 1 is created before the cluster engine 0, and engine 1 is entered afterwards -/
example : (run exSetup (Dask.State.init exSetup) ([.create 1] ++ .create 0 :: [])).eng.global = none ∧
    (run exSetup (Dask.State.init exSetup) ([.create 1] ++ .create 0 :: [])).eng.entered 1 = false ∧
    (run exSetup (Dask.State.init exSetup) [.create 1, .create 0, .call (.enter 1)]).conf.lookup "scheduler" = some "distributed" ∧
    (run exSetup (Dask.State.init exSetup) [.create 1, .call (.enter 1)]).conf.lookup "scheduler" = some "threads" := by decide +kernel

/-- **C71 (finding).** An attempt to enter a second engine fails, but its settings have been applied: the running engine continues with the settings of the other. -/
theorem C71_failed_enter_sets : let s := run exSetup (Dask.State.init exSetup) [.create 1, .create 2, .call (.enter 1)]
    (step exSetup s (.call (.enter 2))).2 = some (.engine .alreadySet) ∧ s.conf.lookup "num_workers" = none ∧
    (step exSetup s (.call (.enter 2))).1.conf.lookup "num_workers" = some "3" ∧ (step exSetup s (.call (.enter 2))).1.eng.global = some 1 := by decide +kernel

/-- **C71 (finding).** Finalizing an engine that was never used removes the settings of the running engine. -/
theorem C71_foreign_finalize_resets : let s := run exSetup (Dask.State.init exSetup) [.create 1, .create 2, .call (.enter 2)]
    s.conf.lookup "num_workers" = some "3" ∧ (step exSetup s (.call (.finalize 1))).2 = none ∧
    (step exSetup s (.call (.finalize 1))).1.conf.lookup "num_workers" = none ∧ (step exSetup s (.call (.finalize 1))).1.eng.global = some 2 := by decide +kernel

/-- **C71 (finding).** Settings that the script made before are lost after a `with` block, unless they are in the files. -/
theorem C71_script_settings_lost (u : Setup) (ops : List Dask.Op) (e : ℕ) (k v : String) (hk : u.base.lookup k = none)
    (hfree : (run u (Dask.State.init u) (ops ++ [.config k v])).eng.global = none) (hnot : (run u (Dask.State.init u) (ops ++ [.config k v])).eng.entered e = false) :
    (run u (Dask.State.init u) (ops ++ [.config k v])).conf.lookup k = some v ∧
    (withBlock u (run u (Dask.State.init u) (ops ++ [.config k v])) e []).1.conf.lookup k = none := by
  refine ⟨?_, ?_⟩
  · simp only [run, List.foldl_append, List.foldl_cons, List.foldl_nil, step]
    rw [lookup_insertKey]; simp
  · obtain ⟨_, h, _⟩ := C71_with_block u (ops ++ [.config k v]) e [] (by simp) hfree hnot
    rw [h, hk]

example : exSetup.base.lookup "array.chunk-size" = none ∧ (run exSetup (Dask.State.init exSetup) ([.create 1] ++ [.config "array.chunk-size" "1MiB"])).eng.global = none ∧
    (run exSetup (Dask.State.init exSetup) ([.create 1] ++ [.config "array.chunk-size" "1MiB"])).eng.entered 1 = false := by decide +kernel

/-! ### Transfer to workers -/

variable {V : Type}

/-- entries whose arrays have one axis per dimension -/
def Ranked (es : List (String × Entry V)) : Prop := ∀ p ∈ es, ∃ l, p.2.dims = some l ∧ l.length = p.2.arr.shape.length

lemma checks_iff (k : ChunkData.Kind) (d d' : Data V) (v : String) (e : Entry V) (l : List String) (he : e.dims = some l) (hl : l.length = e.arr.shape.length)
    (hv : d.entries.lookup v = some e) : ChunkData.checks k d v e = .ok d' ↔
      ∃ s, DataBox.checkSizes d.sizes l e.arr.shape = (s, none) ∧ ChunkData.classCheck k { d with sizes := s } v = none ∧ d' = { d with sizes := s } := by
  have hself : insertKey v e d.entries = d.entries := insertKey_self v e _ hv
  have hee : (⟨e.arr, some l⟩ : Entry V) = e := by cases e; simp at he; simp [he]
  unfold ChunkData.checks DataBox.entryChecks
  simp only [he, DataBox.kept, hl, ne_eq, not_true_eq_false, if_false, hee, hself]
  cases hc : DataBox.checkSizes d.sizes l e.arr.shape with
  | mk s o =>
    cases o with
    | some x => simp
    | none =>
      simp only [Prod.mk.injEq, and_true]
      cases hcc : ChunkData.classCheck k { d with sizes := s } v with
      | some x =>
        simp only [reduceCtorEq, false_iff, not_exists, not_and]
        rintro s' rfl h
        rw [hcc] at h; simp at h
      | none =>
        constructor
        · intro h
          simp at h
          exact ⟨s, rfl, hcc, h.symm⟩
        · rintro ⟨s', rfl, _, h⟩
          simp [h]

lemma classCheck_mono (k : ChunkData.Kind) (d : Data V) (F : List (String × Entry V)) (v : String) (e : Entry V) (hv : d.entries.lookup v = some e)
    (h : ∀ w f, d.entries.lookup w = some f → F.lookup w = some f) (hc : ChunkData.classCheck k d v = none) :
    ChunkData.classCheck k { d with entries := F } v = none := by
  cases k with
  | model => rfl
  | farm =>
    simp only [ChunkData.classCheck, ChunkData.farmCheck, hv, h v e hv] at hc ⊢
    exact hc
  | target =>
    have ht : ∀ x, (F.lookup x).isNone = true → (d.entries.lookup x).isNone = true := by
      intro x hx
      cases hd : d.entries.lookup x with
      | none => rfl
      | some f => rw [h x f hd] at hx; simp at hx
    simp only [ChunkData.classCheck, ChunkData.targetCheck, hv, h v e hv] at hc ⊢
    by_cases h1 : v = "targets"
    · rw [if_pos h1] at hc ⊢; exact hc
    rw [if_neg h1] at hc ⊢
    by_cases h2 : v = "tpoint_weights"
    · rw [if_pos h2] at hc ⊢; exact hc
    rw [if_neg h2] at hc ⊢
    by_cases h3 : (d.entries.lookup "targets").isNone = true
    · rw [if_pos h3] at hc; simp at hc
    rw [if_neg h3] at hc
    by_cases h4 : (d.entries.lookup "tpoint_weights").isNone = true
    · rw [if_pos h4] at hc; simp at hc
    rw [if_neg h4] at hc
    rw [if_neg (fun x => h3 (ht _ x)), if_neg (fun x => h4 (ht _ x))]
    exact hc

/-- the loop over entries of a larger container does the same -/
lemma loop_mirror (k : ChunkData.Kind) (l : List (String × Entry V)) (hr : Ranked l) (d d1 : Data V) (F : List (String × Entry V)) (hl : ∀ p ∈ l, d.entries.lookup p.1 = some p.2)
    (hF : ∀ w f, d.entries.lookup w = some f → F.lookup w = some f) (h : ChunkData.checkLoop k d l = .ok d1) :
    ∃ s, d1 = { d with sizes := s } ∧ ChunkData.checkLoop k { d with entries := F } l = .ok { d with entries := F, sizes := s } ∧
      DataBox.Grows d.sizes s ∧ ∀ p ∈ l, DataBox.Fits s p.2 := by
  induction l generalizing d with
  | nil =>
    simp [ChunkData.checkLoop] at h; subst h
    exact ⟨d.sizes, rfl, rfl, DataBox.Grows.refl _, by simp⟩
  | cons p l ih =>
    obtain ⟨v, e⟩ := p
    obtain ⟨ds, hd, hlen⟩ := hr (v, e) (by simp)
    have hv : d.entries.lookup v = some e := hl (v, e) (by simp)
    simp only [ChunkData.checkLoop] at h
    cases hc : ChunkData.checks k d v e with
    | error x => rw [hc] at h; simp at h
    | ok d2 =>
      rw [hc] at h
      obtain ⟨s, h1, h2, rfl⟩ := (checks_iff k d d2 v e ds hd hlen hv).1 hc
      obtain ⟨s', e1, e2, g, ft⟩ := ih (fun q hq => hr q (by simp [hq])) { d with sizes := s } (fun q hq => hl q (by simp [hq])) hF h
      have hg := (DataBox.checkSizes_spec d.sizes ds e.arr.shape).1
      rw [h1] at hg
      refine ⟨s', e1, ?_, hg.trans g, ?_⟩
      · have hc' : ChunkData.checks k { d with entries := F } v e = .ok { d with entries := F, sizes := s } := by
          rw [checks_iff k _ _ v e ds hd hlen (hF v e hv)]
          exact ⟨s, h1, classCheck_mono k { d with sizes := s } F v e hv hF h2, rfl⟩
        simp only [ChunkData.checkLoop, hc']
        exact e2
      · intro q hq
        rcases List.mem_cons.1 hq with rfl | hq
        · have hf := (DataBox.checkSizes_spec d.sizes ds e.arr.shape).2
          rw [h1] at hf
          refine DataBox.Fits.mono ?_ g
          intro ds' i c hds hci
          rw [hd] at hds; simp at hds; subst hds
          exact hf rfl i c hci
        · exact ft q hq

/-- entries that fit leave the sizes as they are -/
lemma checkSizes_fits (s : List (String × ℕ)) (cs : List String) (ns : List ℕ) (hl : cs.length = ns.length)
    (h : ∀ (i : ℕ) (c : String), cs[i]? = some c → ∃ n m, ns[i]? = some n ∧ s.lookup c = some m ∧ (n = m ∨ n = 1)) (cs' : List String) (ns' : List ℕ) :
    DataBox.checkSizes s (cs ++ cs') (ns ++ ns') = DataBox.checkSizes s cs' ns' := by
  induction cs generalizing ns with
  | nil =>
    have : ns = [] := by simpa using hl.symm
    subst this; rfl
  | cons c cs ih =>
    cases ns with
    | nil => simp at hl
    | cons n ns =>
      obtain ⟨n', m, h1, h2, h3⟩ := h 0 c rfl
      simp at h1; subst h1
      have hrest := ih ns (by simpa using hl) (fun i c' hi => by
        obtain ⟨a, b, x, y, z⟩ := h (i + 1) c' (by simpa using hi)
        exact ⟨a, b, by simpa using x, y, z⟩)
      simp only [List.cons_append, DataBox.checkSizes, h2]
      by_cases hm : m = 1
      · have hn : n = 1 := by rcases h3 with h | h <;> omega
        rw [if_pos hm, hn, insertKey_self c 1 s (by rw [h2, hm])]
        exact hrest
      · rw [if_neg hm]
        by_cases hn : n = 1
        · rw [if_pos hn]; exact hrest
        · rw [if_neg hn, if_neg (by omega)]; exact hrest

/-- an index coordinate -/
def coordEntry (coord : ℕ → V) (c : String) (n : ℕ) : Entry V := ⟨⟨[n], fun idx => coord (idx.headD 0)⟩, some [c]⟩

lemma coordFold_ext (coord : ℕ → V) (s : List (String × ℕ)) (cs : List String) (es : List (String × Entry V)) (hk : (es.map Prod.fst).Nodup) :
    ∃ ext, cs.foldl (DataBox.coordStep coord s) es = es ++ ext ∧ ((es ++ ext).map Prod.fst).Nodup ∧
      ∀ p ∈ ext, p.1 ∈ cs ∧ ∃ n, s.lookup p.1 = some n ∧ p.2 = coordEntry coord p.1 n := by
  induction cs generalizing es with
  | nil => exact ⟨[], by simp, by simpa using hk, by simp⟩
  | cons c cs ih =>
    rw [List.foldl_cons]
    cases hn : es.lookup c with
    | some x =>
      have : DataBox.coordStep coord s es c = es := by simp [DataBox.coordStep, hn]
      rw [this]
      obtain ⟨ext, a, b, d⟩ := ih es hk
      exact ⟨ext, a, b, fun p hp => ⟨by simp [(d p hp).1], (d p hp).2⟩⟩
    | none =>
      cases hs : s.lookup c with
      | none =>
        have : DataBox.coordStep coord s es c = es := by simp [DataBox.coordStep, hn, hs]
        rw [this]
        obtain ⟨ext, a, b, d⟩ := ih es hk
        exact ⟨ext, a, b, fun p hp => ⟨by simp [(d p hp).1], (d p hp).2⟩⟩
      | some n =>
        have : DataBox.coordStep coord s es c = es ++ [(c, coordEntry coord c n)] := by
          simp only [DataBox.coordStep, hn, Option.isSome_none, Bool.false_eq_true, if_false, hs]
          exact ChunkData.insertKey_new _ _ _ hn
        rw [this]
        obtain ⟨ext, a, b, d⟩ := ih _ (ChunkData.nodup_append_one es c (coordEntry coord c n) hk hn)
        refine ⟨(c, coordEntry coord c n) :: ext, by rw [a]; simp, by simpa using b, ?_⟩
        intro p hp
        rcases List.mem_cons.1 hp with rfl | hp
        · exact ⟨by simp, n, hs, rfl⟩
        · exact ⟨by simp [(d p hp).1], (d p hp).2⟩

lemma loop_append (k : ChunkData.Kind) (d : Data V) (a b : List (String × Entry V)) :
    ChunkData.checkLoop k d (a ++ b) = match ChunkData.checkLoop k d a with
      | .error x => .error x
      | .ok d' => ChunkData.checkLoop k d' b := by
  induction a generalizing d with
  | nil => rfl
  | cons p a ih =>
    simp only [List.cons_append, ChunkData.checkLoop]
    cases ChunkData.checks k d p.1 p.2 with
    | error x => rfl
    | ok d' => exact ih d'

lemma loop_coords (k : ChunkData.Kind) (coord : ℕ → V) (ext : List (String × Entry V)) (d : Data V) (hl : ∀ p ∈ ext, d.entries.lookup p.1 = some p.2)
    (hx : ∀ p ∈ ext, ∃ n m, p.2 = coordEntry coord p.1 n ∧ d.sizes.lookup p.1 = some m ∧ (n = m ∨ n = 1))
    (ht : k = .target → ∀ p ∈ ext, p.1 ≠ "targets" ∧ p.1 ≠ "tpoint_weights" ∧ (d.entries.lookup "targets").isSome ∧ (d.entries.lookup "tpoint_weights").isSome) :
    ChunkData.checkLoop k d ext = .ok d := by
  induction ext with
  | nil => rfl
  | cons p ext ih =>
    obtain ⟨v, e⟩ := p
    obtain ⟨n, m, he, hm, hnm⟩ := hx (v, e) (by simp)
    simp only at he hm
    have hc : ChunkData.checks k d v e = .ok d := by
      rw [checks_iff k d d v e [v] (by rw [he]; rfl) (by rw [he]; rfl) (hl (v, e) (by simp))]
      refine ⟨d.sizes, ?_, ?_, rfl⟩
      · have := checkSizes_fits d.sizes [v] [n] rfl (by
          intro i c hi
          cases i with
          | zero => simp at hi; subst hi; exact ⟨n, m, rfl, hm, hnm⟩
          | succ i => simp at hi) [] []
        rw [he]
        exact this
      · have hv := hl (v, e) (by simp)
        cases k with
        | model => rfl
        | farm =>
          simp only at hv
          simp only [ChunkData.classCheck, ChunkData.farmCheck, hv, hm, Option.isSome_some, true_or, if_true]
        | target =>
          obtain ⟨n1, n2, h2, h3⟩ := ht rfl (v, e) (by simp)
          simp only at hv n1 n2
          obtain ⟨a, ha⟩ := Option.isSome_iff_exists.1 h2
          obtain ⟨b, hb⟩ := Option.isSome_iff_exists.1 h3
          simp only [ChunkData.classCheck, ChunkData.targetCheck, hv, if_neg n1, if_neg n2, ha, hb, hm, Option.isNone_some, Bool.false_eq_true, if_false, Option.isSome_some, if_true]
    simp only [ChunkData.checkLoop, hc]
    exact ih (fun q hq => hl q (by simp [hq])) (fun q hq => hx q (by simp [hq])) (fun h q hq => ht h q (by simp [hq]))

/-- the two outcomes of combining the positions -/
lemma stack_cases (d d1 : Data V) (h : ChunkData.stack d = .ok d1) :
    (d1 = d ∧ ∀ (F : List (String × Entry V)) (s : List (String × ℕ)), (∀ v ∈ ["txyh", "X", "Y", "H"], F.lookup v = d.entries.lookup v) →
      ChunkData.stack { d with entries := F, sizes := s } = .ok { d with entries := F, sizes := s }) ∨
    (∃ x y z l, d.entries.lookup "txyh" = none ∧ d.entries.lookup "X" = some x ∧ d.entries.lookup "Y" = some y ∧ d.entries.lookup "H" = some z ∧ x.dims = some l ∧
      d1 = { d with entries := d.entries ++ [("txyh", ⟨ChunkData.stackLast x.arr y.arr z.arr, some (l ++ ["xyh"])⟩)] }) := by
  unfold ChunkData.stack at h
  have hno : ∀ (F : List (String × Entry V)) (s : List (String × ℕ)), (∀ v ∈ ["txyh", "X", "Y", "H"], F.lookup v = d.entries.lookup v) →
      F.lookup "txyh" = d.entries.lookup "txyh" ∧ F.lookup "X" = d.entries.lookup "X" ∧ F.lookup "Y" = d.entries.lookup "Y" ∧ F.lookup "H" = d.entries.lookup "H" := by
    intro F s hF
    exact ⟨hF _ (by simp), hF _ (by simp), hF _ (by simp), hF _ (by simp)⟩
  cases h0 : d.entries.lookup "txyh" with
  | some t =>
    rw [h0] at h
    simp only at h
    simp at h
    left
    refine ⟨h.symm, ?_⟩
    intro F s hF
    obtain ⟨a, b, c, e⟩ := hno F s hF
    rw [h0] at a
    simp only [ChunkData.stack, a]
  | none =>
    cases hx : d.entries.lookup "X" with
    | none =>
      rw [h0, hx] at h
      simp at h
      left
      refine ⟨h.symm, ?_⟩
      intro F s hF
      obtain ⟨a, b, c, e⟩ := hno F s hF
      rw [h0] at a; rw [hx] at b
      simp only [ChunkData.stack, a, b]
    | some x =>
      cases hy : d.entries.lookup "Y" with
      | none =>
        rw [h0, hx, hy] at h
        simp at h
        left
        refine ⟨h.symm, ?_⟩
        intro F s hF
        obtain ⟨a, b, c, e⟩ := hno F s hF
        rw [h0] at a; rw [hx] at b; rw [hy] at c
        simp only [ChunkData.stack, a, b, c]
      | some y =>
        cases hz : d.entries.lookup "H" with
        | none =>
          rw [h0, hx, hy, hz] at h
          simp at h
          left
          refine ⟨h.symm, ?_⟩
          intro F s hF
          obtain ⟨a, b, c, e⟩ := hno F s hF
          rw [h0] at a; rw [hx] at b; rw [hy] at c; rw [hz] at e
          simp only [ChunkData.stack, a, b, c, e]
        | some z =>
          rw [h0, hx, hy, hz] at h
          simp only at h
          by_cases hd : x.dims = y.dims ∧ x.dims = z.dims
          · rw [if_pos hd] at h
            by_cases hs : x.arr.shape = y.arr.shape ∧ x.arr.shape = z.arr.shape
            · rw [if_pos hs] at h
              cases hl : x.dims with
              | none => rw [hl] at h; simp at h
              | some l =>
                rw [hl] at h
                simp at h
                right
                refine ⟨x, y, z, l, rfl, rfl, rfl, rfl, hl, ?_⟩
                rw [← h, ChunkData.insertKey_new _ _ _ h0]
            · rw [if_neg hs] at h; simp at h
          · rw [if_neg hd] at h
            simp at h
            left
            refine ⟨h.symm, ?_⟩
            intro F s hF
            obtain ⟨a, b, c, e⟩ := hno F s hF
            rw [h0] at a; rw [hx] at b; rw [hy] at c; rw [hz] at e
            simp only [ChunkData.stack, a, b, c, e, if_neg hd]

lemma coordFold_id (coord : ℕ → V) (s : List (String × ℕ)) (cs : List String) (es : List (String × Entry V)) (h : ∀ c ∈ cs, (es.lookup c).isSome ∨ s.lookup c = none) :
    cs.foldl (DataBox.coordStep coord s) es = es := by
  induction cs with
  | nil => rfl
  | cons c cs ih =>
    have : DataBox.coordStep coord s es c = es := by
      unfold DataBox.coordStep
      rcases h c (by simp) with hc | hc
      · rw [if_pos hc]
      · split
        · rfl
        · rw [hc]
    rw [List.foldl_cons, this]
    exact ih (fun c' h' => h c' (by simp [h']))

lemma update_ok (k : ChunkData.Kind) (coord : ℕ → V) (d1 d : Data V) :
    ChunkData.update k coord d1 = .ok d ↔ ∃ d2, ChunkData.stack d1 = .ok d2 ∧ d = DataBox.autoUpdate coord d2 ∧ ChunkData.lastCheck k d = none := by
  unfold ChunkData.update
  cases hs : ChunkData.stack d1 with
  | error x => simp [bind, Except.bind]
  | ok d2 =>
    simp only [bind, Except.bind]
    cases hl : ChunkData.lastCheck k (DataBox.autoUpdate coord d2) with
    | some x =>
      simp only [reduceCtorEq, Except.ok.injEq, false_iff, not_exists, not_and]
      rintro d' rfl rfl h
      rw [hl] at h; simp at h
    | none =>
      simp only [Except.ok.injEq]
      constructor
      · rintro rfl; exact ⟨d2, rfl, rfl, hl⟩
      · rintro ⟨d', rfl, rfl, _⟩; rfl

lemma checkSizes_keys (s : List (String × ℕ)) (cs : List String) (ns : List ℕ) (c : String) (h : ((DataBox.checkSizes s cs ns).1.lookup c).isSome) :
    (s.lookup c).isSome ∨ c ∈ cs := by
  induction cs generalizing s ns with
  | nil => exact Or.inl h
  | cons a cs ih =>
    cases ns with
    | nil => exact Or.inl h
    | cons n ns =>
      have ins : ((insertKey a n s).lookup c).isSome → (s.lookup c).isSome ∨ c ∈ a :: cs := by
        intro h
        rw [lookup_insertKey] at h
        by_cases hca : c = a
        · right; simp [hca]
        · rw [if_neg hca] at h; exact Or.inl h
      have up : (s.lookup c).isSome ∨ c ∈ cs → (s.lookup c).isSome ∨ c ∈ a :: cs := by
        rintro (h | h)
        · exact Or.inl h
        · exact Or.inr (by simp [h])
      simp only [DataBox.checkSizes] at h
      cases hl : s.lookup a with
      | none =>
        rw [hl] at h
        rcases ih _ _ h with h | h
        · exact ins h
        · exact Or.inr (by simp [h])
      | some m =>
        rw [hl] at h
        simp only at h
        by_cases h1 : m = 1
        · rw [if_pos h1] at h
          rcases ih _ _ h with h | h
          · exact ins h
          · exact Or.inr (by simp [h])
        · rw [if_neg h1] at h
          by_cases h2 : n = 1
          · rw [if_pos h2] at h; exact up (ih _ _ h)
          · rw [if_neg h2] at h
            by_cases h3 : m ≠ n
            · rw [if_pos h3] at h; exact Or.inl h
            · rw [if_neg h3] at h; exact up (ih _ _ h)

lemma loop_keys (k : ChunkData.Kind) (l : List (String × Entry V)) (hr : Ranked l) (d d1 : Data V) (hl : ∀ p ∈ l, d.entries.lookup p.1 = some p.2)
    (h : ChunkData.checkLoop k d l = .ok d1) (c : String) (hc : (d1.sizes.lookup c).isSome) : (d.sizes.lookup c).isSome ∨ c ∈ dimNames l := by
  induction l generalizing d with
  | nil =>
    simp [ChunkData.checkLoop] at h; subst h
    exact Or.inl hc
  | cons p l ih =>
    obtain ⟨v, e⟩ := p
    obtain ⟨ds, hd, hlen⟩ := hr (v, e) (by simp)
    simp only [ChunkData.checkLoop] at h
    cases hcc : ChunkData.checks k d v e with
    | error x => rw [hcc] at h; simp at h
    | ok d2 =>
      rw [hcc] at h
      obtain ⟨s, h1, _, rfl⟩ := (checks_iff k d d2 v e ds hd hlen (hl (v, e) (by simp))).1 hcc
      have hkeys := checkSizes_keys d.sizes ds e.arr.shape c
      rw [h1] at hkeys
      simp only at hd
      have hdn : dimNames ((v, e) :: l) = ds ++ dimNames l := by simp [dimNames, hd]
      rw [hdn]
      rcases ih (fun q hq => hr q (by simp [hq])) { d with sizes := s } (fun q hq => hl q (by simp [hq])) h with h2 | h2
      · rcases hkeys h2 with h3 | h3
        · exact Or.inl h3
        · exact Or.inr (by simp [h3])
      · exact Or.inr (by simp [h2])

/-- the same data, up to the names of the three components of positions -/
def SameData (d d' : Data V) : Prop :=
  d'.i0 = d.i0 ∧ d'.loopDims = d.loopDims ∧ (∀ v, v ≠ "xyh" → d'.entries.lookup v = d.entries.lookup v) ∧ (∀ v e, d.entries.lookup v = some e → d'.entries.lookup v = some e) ∧
    ∀ c, c ≠ "xyh" → d'.sizes.lookup c = d.sizes.lookup c

lemma SameData.refl (d : Data V) : SameData d d := ⟨rfl, rfl, fun _ _ => rfl, fun _ _ h => h, fun _ _ => rfl⟩

/-- names that no dimension may have -/
def reserved : List String := ["txyh", "X", "Y", "H", "targets", "tpoint_weights"]

lemma lastCheck_all (d : Data V) (h : ChunkData.lastCheck .target d = none) (hne : d.entries ≠ []) :
    (["targets", "tpoint_weights"].all fun x => (d.entries.lookup x).isSome) = true ∧ (["state", "target", "target_point"].all fun x => (d.sizes.lookup x).isSome) = true := by
  unfold ChunkData.lastCheck at h
  rw [if_neg hne] at h
  simp only at h
  by_contra hc
  rw [if_neg hc] at h
  simp at h

lemma lastCheck_target (d : Data V) (h : ChunkData.lastCheck .target d = none) (hne : d.entries ≠ []) :
    (d.entries.lookup "targets").isSome ∧ (d.entries.lookup "tpoint_weights").isSome := by
  have := (lastCheck_all d h hne).1
  simpa only [List.all_cons, List.all_nil, Bool.and_true, Bool.and_eq_true] using this

lemma lastCheck_sizes (d : Data V) (h : ChunkData.lastCheck .target d = none) (hne : d.entries ≠ []) :
    (d.sizes.lookup "target").isSome ∧ (d.sizes.lookup "target_point").isSome := by
  have := (lastCheck_all d h hne).2
  simp only [List.all_cons, List.all_nil, Bool.and_true, Bool.and_eq_true] at this
  exact this.2

lemma lastCheck_mono (k : ChunkData.Kind) (d d' : Data V) (h : ChunkData.lastCheck k d = none) (hne : d.entries ≠ []) (h1 : ∀ v, (d.entries.lookup v).isSome → (d'.entries.lookup v).isSome)
    (h2 : ∀ c, (d.sizes.lookup c).isSome → (d'.sizes.lookup c).isSome) : ChunkData.lastCheck k d' = none := by
  unfold ChunkData.lastCheck
  split
  · rfl
  · cases k with
    | model => rfl
    | farm =>
      unfold ChunkData.lastCheck at h
      rw [if_neg hne] at h
      simp only at h ⊢
      by_cases hc : (["state", "turbine"].all fun x => (d.sizes.lookup x).isSome) = true
      · rw [if_pos]
        rw [List.all_eq_true] at hc ⊢
        intro x hx
        exact h2 x (hc x hx)
      · rw [if_neg hc] at h; simp at h
    | target =>
      obtain ⟨a, b⟩ := lastCheck_all d h hne
      simp only
      rw [if_pos]
      rw [List.all_eq_true] at a b ⊢
      rw [List.all_eq_true]
      exact ⟨fun x hx => h1 x (a x hx), fun x hx => h2 x (b x hx)⟩

/-- A container that was built from entries with one axis per dimension can be built again from its own entries, and is the same. -/
theorem C71_rebuild (k : ChunkData.Kind) (coord : ℕ → V) (es : List (String × Entry V)) (ld : List String) (i0 : Option ℕ) (hk : (es.map Prod.fst).Nodup) (hr : Ranked es)
    (hd : ∀ c ∈ dimNames es, c ∉ reserved) (d : Data V) (h : ChunkData.construct k coord es ld i0 = .ok d)
    (hx : d.size "xyh" = none ∨ d.size "xyh" = some 1 ∨ d.size "xyh" = some 3) :
    (d.entries.map Prod.fst).Nodup ∧ ∃ d', ChunkData.construct k coord d.entries d.loopDims d.i0 = .ok d' ∧ SameData d d' ∧
      (d.size "xyh" = some 3 ∨ d.entries.lookup "txyh" = none → d' = d) := by
  have h00 := h
  unfold ChunkData.construct at h
  cases hc : ChunkData.checkLoop k { entries := es, sizes := [], loopDims := ld, i0 := i0 } es with
  | error x => rw [hc] at h; simp at h
  | ok d1 =>
    rw [hc] at h
    simp only at h
    have hl : ∀ p ∈ es, es.lookup p.1 = some p.2 := fun p hp => lookup_of_mem es hk p.1 p.2 hp
    obtain ⟨s1, rfl, _, _, hfit⟩ := loop_mirror k es hr _ d1 es hl (fun _ _ h => h) hc
    have hkeys := loop_keys k es hr _ _ hl hc
    simp only at hkeys
    have hkeys' : ∀ c, (s1.lookup c).isSome → c ∉ reserved := by
      intro c h1
      rcases hkeys c h1 with h2 | h2
      · simp at h2
      · exact hd c h2
    obtain ⟨d2, hst, rfl, hlast⟩ := (update_ok k coord _ d).1 h
    rcases stack_cases _ d2 hst with ⟨rfl, hstack⟩ | ⟨x, y, z, l, h0, hX, hY, hZ, hxl, rfl⟩
    · -- no combined positions
      obtain ⟨ext, he, hnd, hex⟩ := coordFold_ext coord s1 (dimNames es) es hk
      obtain ⟨_, _, c3⟩ := DataBox.coordFold_spec coord s1 (dimNames es) es
      rw [he] at c3
      have hE : DataBox.autoUpdate coord ({ entries := es, sizes := s1, loopDims := ld, i0 := i0 } : Data V) = { entries := es ++ ext, sizes := s1, loopDims := ld, i0 := i0 } := by
        show Data.mk ((dimNames es).foldl (DataBox.coordStep coord s1) es) s1 ld i0 = _
        rw [he]
      rw [hE] at hlast ⊢
      have hsub : ∀ w f, es.lookup w = some f → (es ++ ext).lookup w = some f := by
        intro w f hw
        rw [List.lookup_append, hw]; rfl
      refine ⟨hnd, { entries := es ++ ext, sizes := s1, loopDims := ld, i0 := i0 }, ?_, SameData.refl _, fun _ => rfl⟩
      unfold ChunkData.construct
      simp only
      obtain ⟨s, e1, e2, _, _⟩ := loop_mirror k es hr _ _ (es ++ ext) hl hsub hc
      simp only [Data.mk.injEq, true_and, and_true] at e1
      subst e1
      rw [loop_append, e2]
      simp only
      rw [loop_coords k coord ext { entries := es ++ ext, sizes := s1, loopDims := ld, i0 := i0 }]
      · rw [update_ok]
        refine ⟨{ entries := es ++ ext, sizes := s1, loopDims := ld, i0 := i0 }, hstack (es ++ ext) s1 ?_, ?_, hlast⟩
        · intro v hv
          rw [List.lookup_append]
          have : ext.lookup v = none := by
            apply ChunkData.lookup_none_of
            intro hm
            obtain ⟨p, hp, rfl⟩ := List.mem_map.1 hm
            have := hd p.1 (hex p hp).1
            simp only [reserved, List.mem_cons, not_or, List.not_mem_nil, or_false] at this hv
            tauto
          rw [this]; simp
        · show _ = Data.mk ((dimNames (es ++ ext)).foldl (DataBox.coordStep coord s1) (es ++ ext)) s1 ld i0
          rw [coordFold_id]
          intro c hcm
          simp only [dimNames, List.flatMap_append, List.mem_append] at hcm
          rcases hcm with hcm | hcm
          · cases hs : s1.lookup c with
            | none => exact Or.inr rfl
            | some n => exact Or.inl (c3 c hcm n hs)
          · obtain ⟨p, hp, hpc⟩ := List.mem_flatMap.1 hcm
            obtain ⟨_, n, _, h3⟩ := hex p hp
            rw [h3] at hpc
            simp [coordEntry] at hpc
            left
            rw [hpc, lookup_of_mem _ hnd p.1 p.2 (by simp [hp])]; rfl
      · intro p hp; exact lookup_of_mem _ hnd p.1 p.2 (by simp [hp])
      · intro p hp
        obtain ⟨_, n, h2, h3⟩ := hex p hp
        exact ⟨n, n, h3, h2, Or.inl rfl⟩
      · rintro rfl p hp
        have hne := hd p.1 (hex p hp).1
        simp only [reserved, List.mem_cons, not_or, List.not_mem_nil, or_false] at hne
        have := lastCheck_target _ hlast (by intro h; simp at h; rw [h.2] at hp; simp at hp)
        exact ⟨hne.2.2.2.2.1, hne.2.2.2.2.2, this⟩
    · -- combined positions
      simp only at h0 hX hY hZ
      set tx : String × Entry V := ("txyh", ⟨ChunkData.stackLast x.arr y.arr z.arr, some (l ++ ["xyh"])⟩) with htx
      have hk' : ((es ++ [tx]).map Prod.fst).Nodup := ChunkData.nodup_append_one es "txyh" _ hk h0
      obtain ⟨ext, he, hnd, hex⟩ := coordFold_ext coord s1 (dimNames (es ++ [tx])) (es ++ [tx]) hk'
      obtain ⟨_, _, c3⟩ := DataBox.coordFold_spec coord s1 (dimNames (es ++ [tx])) (es ++ [tx])
      rw [he] at c3
      have hE : DataBox.autoUpdate coord ({ entries := es ++ [tx], sizes := s1, loopDims := ld, i0 := i0 } : Data V) = { entries := es ++ [tx] ++ ext, sizes := s1, loopDims := ld, i0 := i0 } := by
        show Data.mk ((dimNames (es ++ [tx])).foldl (DataBox.coordStep coord s1) (es ++ [tx])) s1 ld i0 = _
        rw [he]
      have hform : ChunkData.Formed k (DataBox.autoUpdate coord ({ entries := es ++ [tx], sizes := s1, loopDims := ld, i0 := i0 } : Data V)) := by
        refine ChunkData.C68_constructed_form k coord es ld i0 hk _ h00 ?_ hr
        intro _ c hcm
        have := hd c hcm
        simp only [reserved, List.mem_cons, not_or, List.not_mem_nil, or_false] at this
        exact ⟨this.2.2.2.2.1, this.2.2.2.2.2⟩
      rw [hE] at hlast hx hform ⊢
      set E := es ++ [tx] ++ ext with hEdef
      have hsub : ∀ w f, es.lookup w = some f → E.lookup w = some f := by
        intro w f hw
        rw [hEdef, List.lookup_append, List.lookup_append, hw]; rfl
      have hxX : E.lookup "X" = some x := hsub _ _ hX
      have hmemX : ("X", x) ∈ es := mem_of_lookup _ _ _ hX
      obtain ⟨l', hl1, hl2⟩ := hr ("X", x) hmemX
      simp only at hl1 hl2
      rw [hxl] at hl1
      obtain rfl : l = l' := by simpa using hl1
      have hEtx : E.lookup "txyh" = some tx.2 := lookup_of_mem E hnd "txyh" tx.2 (by simp [hEdef, htx])
      have hnoX : (s1.lookup "X").isSome = false := by
        cases hh : (s1.lookup "X").isSome with
        | false => rfl
        | true => exact absurd (by simp [reserved]) (hkeys' "X" hh)
      have hnotx : (s1.lookup "txyh").isSome = false := by
        cases hh : (s1.lookup "txyh").isSome with
        | false => rfl
        | true => exact absurd (by simp [reserved]) (hkeys' "txyh" hh)
      -- the sizes after the combined positions
      obtain ⟨s2, hs2, hs2x, hs2o, hs2e⟩ : ∃ s2, DataBox.checkSizes s1 (l ++ ["xyh"]) (x.arr.shape ++ [3]) = (s2, none) ∧ s2.lookup "xyh" = some 3 ∧
          (∀ c, c ≠ "xyh" → s2.lookup c = s1.lookup c) ∧ (s1.lookup "xyh" = some 3 → s2 = s1) := by
        have hf := hfit ("X", x) hmemX
        rw [checkSizes_fits s1 l x.arr.shape hl2 (fun i c hi => hf l i c hxl hi)]
        have hins : ∀ c, c ≠ "xyh" → (insertKey "xyh" 3 s1).lookup c = s1.lookup c := by
          intro c hc; rw [lookup_insertKey, if_neg hc]
        have hx' : s1.lookup "xyh" = none ∨ s1.lookup "xyh" = some 1 ∨ s1.lookup "xyh" = some 3 := hx
        rcases hx' with h | h | h
        · exact ⟨insertKey "xyh" 3 s1, by simp [DataBox.checkSizes, h], by rw [lookup_insertKey]; simp, hins, by rw [h]; simp⟩
        · exact ⟨insertKey "xyh" 3 s1, by simp [DataBox.checkSizes, h], by rw [lookup_insertKey]; simp, hins, by rw [h]; simp⟩
        · exact ⟨s1, by simp [DataBox.checkSizes, h], h, fun _ _ => rfl, fun _ => rfl⟩
      have hup : ∀ c, (s1.lookup c).isSome → (s2.lookup c).isSome := by
        intro c h
        by_cases hc : c = "xyh"
        · rw [hc, hs2x]; rfl
        · rw [hs2o c hc]; exact h
      have hdims : tx.2.dims = some (l ++ ["xyh"]) := rfl
      have hshape : tx.2.arr.shape = x.arr.shape ++ [3] := rfl
      have hclass : ChunkData.classCheck k ({ entries := E, sizes := s2, loopDims := ld, i0 := i0 } : Data V) "txyh" = none := by
        have hFX := hform.1 "X" x hxX
        have hns : (s2.lookup "txyh").isSome = false := by rw [hs2o _ (by decide)]; exact hnotx
        cases k with
        | model => rfl
        | farm =>
          have hpre : ["state", "turbine"] <+: l := by
            rcases hFX with h | h | h | ⟨l', h, hp⟩ | ⟨h, _⟩
            · simp only at h; rw [hnoX] at h; simp at h
            · exact absurd h (by decide)
            · exact absurd h (by decide)
            · rw [hxl] at h; simp at h; subst h; exact hp
            · exact absurd h (by decide)
          obtain ⟨r, rfl⟩ := hpre
          have h2 : ¬ (((s2.lookup "txyh").isSome = true ∨ "txyh" = "tname") ∨ "txyh" = "weight") := by rw [hns]; decide
          have hlen : ¬ tx.2.arr.shape.length < 2 := by rw [hshape, List.length_append, ← hl2]; simp
          simp only [ChunkData.classCheck, ChunkData.farmCheck, hEtx, hns, hlen, hdims]
          simp
        | target =>
          have hpre : ["state", "target", "target_point"] <+: l := by
            rcases hFX with ⟨h, _⟩ | ⟨h, _⟩ | ⟨_, _, h⟩
            · exact absurd h (by decide)
            · exact absurd h (by decide)
            · rcases h with h | ⟨l', h, hp⟩ | ⟨h, _⟩
              · simp only at h; rw [hnoX] at h; simp at h
              · rw [hxl] at h; simp at h; subst h; exact hp
              · exact absurd h (by decide)
          obtain ⟨r, rfl⟩ := hpre
          have hlen : ¬ tx.2.arr.shape.length < 3 := by rw [hshape, List.length_append, ← hl2]; simp
          obtain ⟨t1, t2⟩ := lastCheck_target _ hlast (by simp [hEdef])
          obtain ⟨t3, t4⟩ := lastCheck_sizes _ hlast (by simp [hEdef])
          obtain ⟨a, ha⟩ := Option.isSome_iff_exists.1 t1
          obtain ⟨b, hb⟩ := Option.isSome_iff_exists.1 t2
          obtain ⟨m, hm⟩ := Option.isSome_iff_exists.1 (hup _ t3)
          obtain ⟨n, hn⟩ := Option.isSome_iff_exists.1 (hup _ t4)
          simp only at ha hb hm hn
          simp only [ChunkData.classCheck, ChunkData.targetCheck, hEtx, hns, hlen, hdims, ha, hb, hm, hn]
          simp
      have hloop : ChunkData.checkLoop k ({ entries := E, sizes := [], loopDims := ld, i0 := i0 } : Data V) E = .ok { entries := E, sizes := s2, loopDims := ld, i0 := i0 } := by
        obtain ⟨s, e1, e2, _, _⟩ := loop_mirror k es hr _ _ E hl hsub hc
        simp only [Data.mk.injEq, true_and, and_true] at e1
        subst e1
        have hsplit : E = es ++ (tx :: ext) := by rw [hEdef]; simp
        have hE2 : ChunkData.checkLoop k ({ entries := E, sizes := [], loopDims := ld, i0 := i0 } : Data V) (es ++ (tx :: ext)) = .ok { entries := E, sizes := s2, loopDims := ld, i0 := i0 } := by
          rw [loop_append, e2]
          simp only
          have hck : ChunkData.checks k ({ entries := E, sizes := s1, loopDims := ld, i0 := i0 } : Data V) tx.1 tx.2 = .ok { entries := E, sizes := s2, loopDims := ld, i0 := i0 } := by
            rw [checks_iff k _ _ tx.1 tx.2 _ hdims (by rw [hshape]; simp [hl2]) hEtx]
            exact ⟨s2, by rw [hshape]; exact hs2, hclass, rfl⟩
          rw [ChunkData.checkLoop, hck]
          simp only
          apply loop_coords k coord ext
          · intro p hp; exact lookup_of_mem E hnd p.1 p.2 (by simp [hEdef, hp])
          · intro p hp
            obtain ⟨_, n, h2, h3⟩ := hex p hp
            by_cases hpx : p.1 = "xyh"
            · refine ⟨n, 3, h3, by rw [hpx]; exact hs2x, ?_⟩
              have hx' : s1.lookup "xyh" = none ∨ s1.lookup "xyh" = some 1 ∨ s1.lookup "xyh" = some 3 := hx
              rw [hpx] at h2
              rw [h2] at hx'
              rcases hx' with h | h | h <;> simp at h <;> omega
            · exact ⟨n, n, h3, by rw [hs2o _ hpx]; exact h2, Or.inl rfl⟩
          · rintro rfl p hp
            have hne : p.1 ∉ reserved := by
              have hm := (hex p hp).1
              simp only [dimNames, List.flatMap_append, List.mem_append] at hm
              rcases hm with hm | hm
              · exact hd p.1 hm
              · simp only [htx, List.flatMap_cons, List.flatMap_nil, List.append_nil, Option.getD_some, List.mem_append, List.mem_cons, List.not_mem_nil, or_false] at hm
                rcases hm with hm | hm
                · apply hd p.1
                  simp only [dimNames, List.mem_flatMap]
                  exact ⟨("X", x), hmemX, by simp [hxl, hm]⟩
                · rw [hm]; simp [reserved]
            simp only [reserved, List.mem_cons, not_or, List.not_mem_nil, or_false] at hne
            have ht := lastCheck_target { entries := E, sizes := s1, loopDims := ld, i0 := i0 } hlast (by simp [hEdef])
            exact ⟨hne.2.2.2.2.1, hne.2.2.2.2.2, ht⟩
        rw [← hsplit] at hE2
        exact hE2
      obtain ⟨ext2, he2, hnd2, hex2⟩ := coordFold_ext coord s2 (dimNames E) E hnd
      have honly : ∀ p ∈ ext2, p.1 = "xyh" := by
        intro p hp
        by_contra hne
        obtain ⟨hm, n, hn, _⟩ := hex2 p hp
        rw [hs2o _ hne] at hn
        have hin : (E.lookup p.1).isSome := by
          rw [hEdef, dimNames, List.flatMap_append, List.mem_append] at hm
          rcases hm with hm | hm
          · exact c3 p.1 hm n hn
          · obtain ⟨q, hq, hqc⟩ := List.mem_flatMap.1 hm
            obtain ⟨_, _, _, h3⟩ := hex q hq
            rw [h3] at hqc
            simp [coordEntry] at hqc
            rw [hqc, lookup_of_mem E hnd q.1 q.2 (by simp [hEdef, hq])]; rfl
        obtain ⟨e, hee⟩ := Option.isSome_iff_exists.1 hin
        have hmem := mem_of_lookup _ _ _ hee
        rw [List.map_append, List.nodup_append] at hnd2
        exact hnd2.2.2 p.1 (List.mem_map.2 ⟨_, hmem, rfl⟩) p.1 (List.mem_map.2 ⟨p, hp, rfl⟩) rfl
      refine ⟨hnd, { entries := E ++ ext2, sizes := s2, loopDims := ld, i0 := i0 }, ?_, ⟨rfl, rfl, ?_, ?_, fun c hc => hs2o c hc⟩, ?_⟩
      · unfold ChunkData.construct
        simp only [hloop]
        rw [update_ok]
        refine ⟨{ entries := E, sizes := s2, loopDims := ld, i0 := i0 }, ?_, ?_, ?_⟩
        · simp only [ChunkData.stack, hEtx]
        · show _ = Data.mk ((dimNames E).foldl (DataBox.coordStep coord s2) E) s2 ld i0
          rw [he2]
        · exact lastCheck_mono k { entries := E, sizes := s1, loopDims := ld, i0 := i0 } _ hlast (by simp [hEdef]) (fun v hv => by
            obtain ⟨e, hee⟩ := Option.isSome_iff_exists.1 hv
            simp only at hee ⊢
            rw [List.lookup_append, hee]; rfl) hup
      · intro v hv
        simp only
        rw [List.lookup_append]
        have : ext2.lookup v = none := by
          apply ChunkData.lookup_none_of
          intro hm
          obtain ⟨p, hp, rfl⟩ := List.mem_map.1 hm
          exact hv (honly p hp)
        rw [this]; simp
      · intro v e hv
        simp only at hv ⊢
        rw [List.lookup_append, hv]; rfl
      · rintro (h3 | h3)
        · have e1 := hs2e h3
          have e2 : ext2 = [] := by
            cases ext2 with
            | nil => rfl
            | cons p r =>
              exfalso
              have hpx := honly p (by simp)
              have hmem : ((es ++ [tx] ++ ext).lookup "xyh").isSome := c3 "xyh" (by simp [dimNames, htx]) 3 h3
              obtain ⟨e, hee⟩ := Option.isSome_iff_exists.1 hmem
              have hmem := mem_of_lookup _ _ _ hee
              rw [List.map_append, List.nodup_append] at hnd2
              exact hnd2.2.2 "xyh" (List.mem_map.2 ⟨_, hmem, rfl⟩) p.1 (List.mem_map.2 ⟨p, by simp, rfl⟩) hpx.symm
          rw [e1, e2]; simp
        · simp only at h3
          rw [hEtx] at h3; simp at h3

/-- an entry with one axis per dimension, none of which has a reserved name -/
def Nice (e : Entry V) : Prop := ∃ l, e.dims = some l ∧ l.length = e.arr.shape.length ∧ ∀ c ∈ l, c ∉ reserved

/-- entries of that kind with unique names -/
def AllNice (es : List (String × Entry V)) : Prop := (es.map Prod.fst).Nodup ∧ ∀ p ∈ es, Nice p.2

lemma AllNice.ranked {es : List (String × Entry V)} (h : AllNice es) : Ranked es := by
  intro p hp
  obtain ⟨l, a, b, _⟩ := h.2 p hp
  exact ⟨l, a, b⟩

lemma AllNice.free {es : List (String × Entry V)} (h : AllNice es) : ∀ c ∈ dimNames es, c ∉ reserved := by
  intro c hc
  obtain ⟨p, hp, hpc⟩ := List.mem_flatMap.1 hc
  obtain ⟨l, a, _, b⟩ := h.2 p hp
  rw [a] at hpc
  exact b c hpc

/-- all entries of a container built from nice entries are nice -/
lemma construct_nice (k : ChunkData.Kind) (coord : ℕ → V) (es : List (String × Entry V)) (ld : List String) (i0 : Option ℕ) (hn : AllNice es) (d : Data V)
    (h : ChunkData.construct k coord es ld i0 = .ok d) : (∀ p ∈ d.entries, Nice p.2) ∧ d.loopDims = ld ∧ d.i0 = i0 := by
  unfold ChunkData.construct at h
  cases hc : ChunkData.checkLoop k { entries := es, sizes := [], loopDims := ld, i0 := i0 } es with
  | error x => rw [hc] at h; simp at h
  | ok d1 =>
    rw [hc] at h
    simp only at h
    have hl : ∀ p ∈ es, es.lookup p.1 = some p.2 := fun p hp => lookup_of_mem es hn.1 p.1 p.2 hp
    obtain ⟨s1, rfl, _, _, _⟩ := loop_mirror k es hn.ranked _ d1 es hl (fun _ _ h => h) hc
    obtain ⟨d2, hst, rfl, _⟩ := (update_ok k coord _ d).1 h
    have main : ∀ es' : List (String × Entry V), AllNice es' →
        ∀ p ∈ (DataBox.autoUpdate coord ({ entries := es', sizes := s1, loopDims := ld, i0 := i0 } : Data V)).entries, Nice p.2 := by
      intro es' hn' p hp
      have hent : (DataBox.autoUpdate coord ({ entries := es', sizes := s1, loopDims := ld, i0 := i0 } : Data V)).entries = (dimNames es').foldl (DataBox.coordStep coord s1) es' := rfl
      obtain ⟨ext, he, _, hex⟩ := coordFold_ext coord s1 (dimNames es') es' hn'.1
      rw [hent, he] at hp
      rcases List.mem_append.1 hp with hp | hp
      · exact hn'.2 p hp
      · obtain ⟨a, n, _, b⟩ := hex p hp
        rw [b]
        refine ⟨[p.1], rfl, rfl, ?_⟩
        intro c hc
        simp at hc; subst hc
        exact hn'.free _ a
    rcases stack_cases _ d2 hst with ⟨rfl, _⟩ | ⟨x, y, z, l, h0, hX, hY, hZ, hxl, rfl⟩
    · exact ⟨main es hn, rfl, rfl⟩
    · simp only at h0 hX
      refine ⟨main _ ⟨ChunkData.nodup_append_one es "txyh" _ hn.1 h0, ?_⟩, rfl, rfl⟩
      intro p hp
      rcases List.mem_append.1 hp with hp | hp
      · exact hn.2 p hp
      · simp at hp; subst hp
        obtain ⟨l', a, b, c⟩ := hn.2 ("X", x) (mem_of_lookup _ _ _ hX)
        simp only at a b
        rw [hxl] at a; simp at a; subst a
        refine ⟨l ++ ["xyh"], rfl, ?_, ?_⟩
        · simp [ChunkData.stackLast, b]
        · intro q hq
          rcases List.mem_append.1 hq with hq | hq
          · exact c q hq
          · simp at hq; subst hq; simp [reserved]

/-! entries of a chunk -/

lemma slice0_length (a : Arr V) (w : ℕ × ℕ) : (ChunkData.slice0 a w).shape.length = a.shape.length := by
  unfold ChunkData.slice0
  cases h : a.shape <;> simp

lemma slice1_length (a : Arr V) (w : ℕ × ℕ) : (ChunkData.slice1 a w).shape.length = a.shape.length := by
  unfold ChunkData.slice1
  cases h : a.shape with
  | nil => simp
  | cons m r => cases r <;> simp

lemma sliceOpt_length (a : Arr V) (w : Option (ℕ × ℕ)) : (ChunkData.sliceOpt a w).shape.length = a.shape.length := by
  cases w with
  | none => rfl
  | some w => exact slice0_length a w

lemma coordIn_nice (w : Option (ℕ × ℕ)) (p : String × Entry V) (h : Nice p.2) : (ChunkData.coordIn w p).1 = p.1 ∧ Nice (ChunkData.coordIn w p).2 := by
  obtain ⟨l, a, b, c⟩ := h
  unfold ChunkData.coordIn
  split
  · exact ⟨rfl, l, a, by simp only [sliceOpt_length]; exact b, c⟩
  · exact ⟨rfl, l, a, b, c⟩

lemma varIn_nice (w : Option (ℕ × ℕ)) (p q : String × Entry V) (h : Nice p.2) (hq : ChunkData.varIn w p = .ok q) : q.1 = p.1 ∧ Nice q.2 := by
  obtain ⟨l, a, b, c⟩ := h
  unfold ChunkData.varIn at hq
  by_cases h1 : "state" ∈ ChunkData.dimsOf p.2
  · rw [if_pos h1] at hq
    by_cases h2 : (ChunkData.dimsOf p.2).head? ≠ some "state"
    · rw [if_pos h2] at hq; simp at hq
    · rw [if_neg h2] at hq
      by_cases h3 : p.1 = "weight" ∧ ChunkData.dimsOf p.2 = ["state"]
      · rw [if_pos h3] at hq
        simp at hq; subst hq
        refine ⟨rfl, ["state", "turbine"], rfl, ?_, by simp [reserved]⟩
        have : l = ["state"] := by have := h3.2; simpa [ChunkData.dimsOf, a] using this
        subst this
        simp only [ChunkData.addAxis, List.length_append, sliceOpt_length, ← b]
        rfl
      · rw [if_neg h3] at hq
        simp at hq; subst hq
        exact ⟨rfl, l, a, by simp only [sliceOpt_length]; exact b, c⟩
  · rw [if_neg h1] at hq
    simp at hq; subst hq
    exact ⟨rfl, l, a, b, c⟩

lemma varsIn_nice (w : Option (ℕ × ℕ)) (l qs : List (String × Entry V)) (h : ∀ p ∈ l, Nice p.2) (hq : ChunkData.varsIn w l = .ok qs) :
    qs.map Prod.fst = l.map Prod.fst ∧ ∀ q ∈ qs, Nice q.2 := by
  induction l generalizing qs with
  | nil => simp [ChunkData.varsIn] at hq; subst hq; simp
  | cons p l ih =>
    simp only [ChunkData.varsIn] at hq
    cases h1 : ChunkData.varIn w p with
    | error x => rw [h1] at hq; simp at hq
    | ok q =>
      rw [h1] at hq
      simp only at hq
      cases h2 : ChunkData.varsIn w l with
      | error x => rw [h2] at hq; simp at hq
      | ok r =>
        rw [h2] at hq
        simp at hq; subst hq
        obtain ⟨a, b⟩ := varIn_nice w p q (h p (by simp)) h1
        obtain ⟨c, d⟩ := ih r (fun p hp => h p (by simp [hp])) h2
        refine ⟨by simp [a, c], ?_⟩
        intro x hx
        rcases List.mem_cons.1 hx with rfl | hx
        · exact b
        · exact d x hx

lemma nice_append (es : List (String × Entry V)) (h : AllNice es) (v : String) (e : Entry V) (hv : es.lookup v = none) (he : Nice e) : AllNice (es ++ [(v, e)]) := by
  refine ⟨ChunkData.nodup_append_one es v e h.1 hv, ?_⟩
  intro p hp
  rcases List.mem_append.1 hp with hp | hp
  · exact h.2 p hp
  · simp at hp; subst hp; exact he

lemma addStates_nice (coord : ℕ → V) (w : Option (ℕ × ℕ)) (n : Option ℕ) (es : List (String × Entry V)) (h : AllNice es) : AllNice (ChunkData.addStates coord w n es) := by
  unfold ChunkData.addStates
  cases h1 : es.lookup "state" with
  | some x => exact h
  | none =>
    cases w with
    | none => exact h
    | some w => cases n with
      | none => exact h
      | some n => exact nice_append es h _ _ h1 ⟨["state"], rfl, rfl, by simp [reserved]⟩

lemma withState_nice (m : Data V) (es es' : List (String × Entry V)) (h : AllNice es) (hm : ∀ p ∈ m.entries, Nice p.2) (hq : ChunkData.withState m es = .ok es') : AllNice es' := by
  unfold ChunkData.withState at hq
  cases h1 : es.lookup "state" with
  | some x => rw [h1] at hq; simp at hq; subst hq; exact h
  | none =>
    rw [h1] at hq
    simp only at hq
    cases h2 : m.entries.lookup "state" with
    | none => rw [h2] at hq; simp at hq
    | some e =>
      rw [h2] at hq
      simp at hq; subst hq
      exact nice_append es h _ _ h1 (hm _ (mem_of_lookup _ _ _ h2))

lemma fill_nice (nan : V) (shape : List ℕ) (dims ov : List String) (es : List (String × Entry V)) (h : AllNice es) (hl : dims.length = shape.length) (hd : ∀ c ∈ dims, c ∉ reserved) :
    AllNice (ChunkData.fill nan shape dims ov es) := by
  unfold ChunkData.fill
  refine ⟨?_, ?_⟩
  · rw [List.map_append, List.nodup_append]
    refine ⟨h.1, ?_, ?_⟩
    · rw [List.map_map]
      have : (Prod.fst ∘ fun o : String => (o, (⟨⟨shape, fun _ => nan⟩, some dims⟩ : Entry V))) = id := rfl
      rw [this, List.map_id]
      exact (List.nodup_dedup ov).filter _
    · intro a ha b hb hab
      obtain ⟨p, hp, rfl⟩ := List.mem_map.1 ha
      obtain ⟨q, hq, rfl⟩ := List.mem_map.1 hb
      obtain ⟨o, ho, rfl⟩ := List.mem_map.1 hq
      rw [List.mem_filter] at ho
      have h2 := ho.2
      simp only at hab
      rw [← hab, lookup_of_mem es h.1 p.1 p.2 hp] at h2
      simp at h2
  · intro p hp
    rcases List.mem_append.1 hp with hp | hp
    · exact h.2 p hp
    · obtain ⟨o, _, rfl⟩ := List.mem_map.1 hp
      exact ⟨dims, rfl, hl, hd⟩

lemma targetsIn_nice (w : ℕ × ℕ) (l qs : List (String × Entry V)) (h : ∀ p ∈ l, Nice p.2) (hq : ChunkData.targetsIn w l = .ok qs) :
    qs.map Prod.fst = l.map Prod.fst ∧ ∀ q ∈ qs, Nice q.2 := by
  induction l generalizing qs with
  | nil => simp [ChunkData.targetsIn] at hq; subst hq; simp
  | cons p l ih =>
    simp only [ChunkData.targetsIn] at hq
    cases h1 : ChunkData.targetIn w p with
    | error x => rw [h1] at hq; simp at hq
    | ok q =>
      rw [h1] at hq
      simp only at hq
      cases h2 : ChunkData.targetsIn w l with
      | error x => rw [h2] at hq; simp at hq
      | ok r =>
        rw [h2] at hq
        simp at hq; subst hq
        have hqq : q.1 = p.1 ∧ Nice q.2 := by
          obtain ⟨dm, a, b, c⟩ := h p (by simp)
          unfold ChunkData.targetIn at h1
          by_cases g1 : "target" ∈ ChunkData.dimsOf p.2
          · rw [if_pos g1] at h1
            by_cases g2 : ChunkData.dimsOf p.2 = ["target"]
            · rw [if_pos g2] at h1
              simp at h1; subst h1
              exact ⟨rfl, dm, a, by simp only [slice0_length]; exact b, c⟩
            · rw [if_neg g2] at h1
              by_cases g3 : (ChunkData.dimsOf p.2).length < 3 ∨ (ChunkData.dimsOf p.2).take 3 ≠ ["state", "target", "target_point"]
              · rw [if_pos g3] at h1; simp at h1
              · rw [if_neg g3] at h1
                simp at h1; subst h1
                exact ⟨rfl, dm, a, by simp only [slice1_length]; exact b, c⟩
          · rw [if_neg g1] at h1
            simp at h1; subst h1
            exact ⟨rfl, dm, a, b, c⟩
        obtain ⟨c, d⟩ := ih r (fun p hp => h p (by simp [hp])) h2
        refine ⟨by simp [hqq.1, c], ?_⟩
        intro x hx
        rcases List.mem_cons.1 hx with rfl | hx
        · exact hqq.2
        · exact d x hx

/-- a dataset with unique names, one axis per dimension, and no dimension with a reserved name -/
def DSNice (ds : ChunkData.DS V) : Prop := AllNice (ds.coords ++ ds.vars)

lemma input_nice (ds : ChunkData.DS V) (hds : DSNice ds) (w : Option (ℕ × ℕ)) (vs : List (String × Entry V)) (hv : ChunkData.varsIn w ds.vars = .ok vs) :
    AllNice (ds.coords.map (ChunkData.coordIn w) ++ vs) := by
  obtain ⟨a, b⟩ := varsIn_nice w ds.vars vs (fun p hp => hds.2 p (by simp [hp])) hv
  refine ⟨?_, ?_⟩
  · have : (ds.coords.map (ChunkData.coordIn w)).map Prod.fst = ds.coords.map Prod.fst := by
      rw [List.map_map]
      apply List.map_congr_left
      intro p _
      exact ChunkData.coordIn_fst w p
    rw [List.map_append, this, a, ← List.map_append]
    exact hds.1
  · intro p hp
    rcases List.mem_append.1 hp with hp | hp
    · obtain ⟨q, hq, rfl⟩ := List.mem_map.1 hp
      exact (coordIn_nice w q (hds.2 q (by simp [hq]))).2
    · exact b p hp

lemma fromDataset_built (k : ChunkData.Kind) (coord : ℕ → V) (ds : ChunkData.DS V) (hds : DSNice ds) (w : Option (ℕ × ℕ))
    (cb : List (String × Entry V) → Except ChunkData.Err (List (String × Entry V))) (hcb : ∀ es es', AllNice es → cb es = .ok es' → AllNice es') (ld : List String) (i0 : Option ℕ) (d : Data V)
    (h : ChunkData.fromDataset k coord ds w cb ld i0 = .ok d) : ∃ es, AllNice es ∧ ChunkData.construct k coord es ld i0 = .ok d := by
  unfold ChunkData.fromDataset at h
  cases hv : ChunkData.varsIn w ds.vars with
  | error x => rw [hv] at h; simp at h
  | ok vs =>
    rw [hv] at h
    simp only at h
    cases hc : cb (ds.coords.map (ChunkData.coordIn w) ++ vs) with
    | error x => rw [hc] at h; simp at h
    | ok es =>
      rw [hc] at h
      exact ⟨_, addStates_nice coord w _ es (hcb _ es (input_nice ds hds w vs hv) hc), h⟩

lemma cbTargets_nice (coord : ℕ → V) (ds : ChunkData.DS V) (t : ℕ × ℕ) (es es' : List (String × Entry V)) (h : AllNice es) (hq : ChunkData.cbTargets coord ds t es = .ok es') :
    AllNice es' ∧ (es'.lookup "target").isSome := by
  have key : ∀ l : List (String × Entry V), AllNice l → (l.lookup "target").isSome → ChunkData.targetsIn t l = .ok es' → AllNice es' ∧ (es'.lookup "target").isSome := by
    intro l hl hs hr
    obtain ⟨a, b⟩ := targetsIn_nice t l es' hl.2 hr
    refine ⟨⟨by rw [a]; exact hl.1, b⟩, ?_⟩
    obtain ⟨e, he⟩ := Option.isSome_iff_exists.1 hs
    cases hh : es'.lookup "target" with
    | some x => rfl
    | none =>
      exfalso
      have hm : "target" ∈ es'.map Prod.fst := by rw [a]; exact List.mem_map.2 ⟨_, mem_of_lookup _ _ _ he, rfl⟩
      obtain ⟨p, hp, hp1⟩ := List.mem_map.1 hm
      have := lookup_of_mem es' (by rw [a]; exact hl.1) p.1 p.2 hp
      rw [hp1, hh] at this
      simp at this
  unfold ChunkData.cbTargets at hq
  cases h1 : es.lookup "target" with
  | some x => rw [h1] at hq; exact key es h (by rw [h1]; rfl) hq
  | none =>
    rw [h1] at hq
    simp only at hq
    cases h2 : ChunkData.targetSize ds with
    | none => rw [h2] at hq; simp at hq
    | some n =>
      rw [h2] at hq
      refine key _ (nice_append es h _ _ h1 ⟨["target"], rfl, rfl, by simp [reserved]⟩) ?_ hq
      rw [List.lookup_append, h1]; rfl

lemma cbFarm_nice (nan : V) (m : Data V) (hm : ∀ p ∈ m.entries, Nice p.2) (nT : ℕ) (s : ℕ × ℕ) (ov : Option (List String)) (es es' : List (String × Entry V)) (h : AllNice es)
    (hq : ChunkData.cbFarm nan m nT s ov es = .ok es') : AllNice es' := by
  unfold ChunkData.cbFarm at hq
  cases h1 : ChunkData.withState m es with
  | error x => rw [h1] at hq; simp at hq
  | ok e1 =>
    rw [h1] at hq
    have hn := withState_nice m es e1 h hm h1
    cases ov with
    | none => simp at hq; subst hq; exact hn
    | some ov =>
      simp at hq; subst hq
      exact fill_nice nan _ _ ov e1 hn rfl (by simp [reserved])

lemma cbPoints_nice (coord : ℕ → V) (nan : V) (m : Data V) (hm : ∀ p ∈ m.entries, Nice p.2) (ds : ChunkData.DS V) (s t : ℕ × ℕ) (ov : List String) (es es' : List (String × Entry V)) (h : AllNice es)
    (hq : ChunkData.cbPoints coord nan m ds s t ov es = .ok es') : AllNice es' ∧ es' ≠ [] := by
  unfold ChunkData.cbPoints at hq
  cases h0 : ChunkData.cbTargets coord ds t es with
  | error x => rw [h0] at hq; simp at hq
  | ok e0 =>
    rw [h0] at hq
    simp only at hq
    obtain ⟨hn0, hs0⟩ := cbTargets_nice coord ds t es e0 h h0
    cases h1 : ChunkData.withState m e0 with
    | error x => rw [h1] at hq; simp at hq
    | ok e1 =>
      rw [h1] at hq
      simp at hq; subst hq
      have hn := withState_nice m e0 e1 hn0 hm h1
      refine ⟨fill_nice nan _ _ ov e1 hn rfl (by simp [reserved]), ?_⟩
      intro hc
      unfold ChunkData.fill at hc
      have hc1 := (List.append_eq_nil_iff.1 hc).1
      subst hc1
      unfold ChunkData.withState at h1
      cases h2 : e0.lookup "state" with
      | some x => rw [h2] at h1; simp at h1; subst h1; simp at hs0
      | none =>
        rw [h2] at h1
        simp only at h1
        cases h3 : m.entries.lookup "state" with
        | none => rw [h3] at h1; simp at h1
        | some e => rw [h3] at h1; simp at h1

lemma construct_ne (k : ChunkData.Kind) (coord : ℕ → V) (es : List (String × Entry V)) (ld : List String) (i0 : Option ℕ) (hn : AllNice es) (d : Data V)
    (h : ChunkData.construct k coord es ld i0 = .ok d) (hne : es ≠ []) : d.entries ≠ [] := by
  unfold ChunkData.construct at h
  cases hc : ChunkData.checkLoop k { entries := es, sizes := [], loopDims := ld, i0 := i0 } es with
  | error x => rw [hc] at h; simp at h
  | ok d1 =>
    rw [hc] at h
    simp only at h
    have hl : ∀ p ∈ es, es.lookup p.1 = some p.2 := fun p hp => lookup_of_mem es hn.1 p.1 p.2 hp
    obtain ⟨s1, rfl, _, _, _⟩ := loop_mirror k es hn.ranked _ d1 es hl (fun _ _ h => h) hc
    obtain ⟨d2, hst, rfl, _⟩ := (update_ok k coord _ d).1 h
    rcases stack_cases _ d2 hst with ⟨rfl, _⟩ | ⟨x, y, z, l, h0, hX, hY, hZ, hxl, rfl⟩
    · obtain ⟨ext, he, _, _⟩ := coordFold_ext coord s1 (dimNames es) es hn.1
      show (dimNames es).foldl (DataBox.coordStep coord s1) es ≠ []
      rw [he]; simp [hne]
    · simp only at h0
      obtain ⟨ext, he, _, _⟩ := coordFold_ext coord s1 (dimNames (es ++ [("txyh", ⟨ChunkData.stackLast x.arr y.arr z.arr, some (l ++ ["xyh"])⟩)])) (es ++ [("txyh", ⟨ChunkData.stackLast x.arr y.arr z.arr, some (l ++ ["xyh"])⟩)])
        (ChunkData.nodup_append_one es "txyh" _ hn.1 h0)
      show (dimNames (es ++ [("txyh", ⟨ChunkData.stackLast x.arr y.arr z.arr, some (l ++ ["xyh"])⟩)])).foldl (DataBox.coordStep coord s1) (es ++ [("txyh", ⟨ChunkData.stackLast x.arr y.arr z.arr, some (l ++ ["xyh"])⟩)]) ≠ []
      rw [he]; simp

lemma points_ne (coord : ℕ → V) (nan : V) (m : Data V) (hm : ∀ p ∈ m.entries, Nice p.2) (ds : ChunkData.DS V) (hds : DSNice ds) (s t : ℕ × ℕ) (ov : List String) (d : Data V)
    (h : ChunkData.chunkPoints coord nan m ds s t ov = .ok d) : d.entries ≠ [] := by
  have h' := h
  unfold ChunkData.chunkPoints ChunkData.fromDataset at h'
  cases hv : ChunkData.varsIn (some s) ds.vars with
  | error x => rw [hv] at h'; simp at h'
  | ok vs =>
    rw [hv] at h'
    simp only at h'
    have hin : AllNice (ds.coords.map (ChunkData.coordIn (some s)) ++ vs) := input_nice ds hds (some s) vs hv
    cases hc : ChunkData.cbPoints coord nan m ds s t ov (ds.coords.map (ChunkData.coordIn (some s)) ++ vs) with
    | error x => rw [hc] at h'; simp at h'
    | ok es =>
      rw [hc] at h'
      simp only at h'
      obtain ⟨a, b⟩ := cbPoints_nice coord nan m hm ds s t ov _ es hin hc
      apply construct_ne .target coord _ _ _ (addStates_nice coord (some s) _ es a) d h'
      unfold ChunkData.addStates
      split
      · simp
      · exact b

/-! #### Cutting the joined lists -/

lemma part_fold (L : List (String × Entry V)) (es acc : List (String × Entry V)) (a : ℕ) (hL : ∀ i (hi : i < es.length), L[a + i]? = some es[i])
    (hk : ((acc ++ es).map Prod.fst).Nodup) :
    (List.range' a es.length).foldlM (fun acc i => match (L.map Prod.fst)[i]?, (L.map (fun p => p.2.dims))[i]?, (L.map (fun p => p.2.arr))[i]? with
    | some n, some l, some x => some (insertKey n ⟨x, l⟩ acc)
    | _, _, _ => none) acc = some (acc ++ es) := by
  induction es generalizing acc a with
  | nil => simp
  | cons p es ih =>
    have h0 := hL 0 (by simp)
    simp only [Nat.add_zero, List.getElem_cons_zero] at h0
    rw [List.length_cons, List.range'_succ, List.foldlM_cons]
    have hnone : acc.lookup p.1 = none := by
      apply ChunkData.lookup_none_of
      intro hm
      rw [List.map_append, List.nodup_append] at hk
      exact hk.2.2 p.1 hm p.1 (by simp) rfl
    have hins : insertKey p.1 (⟨p.2.arr, p.2.dims⟩ : Entry V) acc = acc ++ [p] := by
      rw [ChunkData.insertKey_new _ _ _ hnone]
    simp only [List.getElem?_map, h0, Option.map_some]
    show (List.range' (a + 1) es.length).foldlM _ (insertKey p.1 (⟨p.2.arr, p.2.dims⟩ : Entry V) acc) = _
    rw [hins]
    have hi := ih (acc ++ [p]) (a + 1) (fun i hi => by
      have := hL (i + 1) (by simpa using hi)
      simp only [List.getElem_cons_succ] at this
      rw [← this]; congr 1; omega) (by simpa using hk)
    simp only [List.getElem?_map] at hi
    rw [hi]; simp

/-- the part of the joined lists that belongs to one container -/
lemma part_spec (l1 es l3 : List (String × Entry V)) (hk : (es.map Prod.fst).Nodup) :
    part ((l1 ++ es ++ l3).map Prod.fst) ((l1 ++ es ++ l3).map (fun p => p.2.dims)) ((l1 ++ es ++ l3).map (fun p => p.2.arr)) l1.length (l1.length + es.length) = some es := by
  unfold part
  have := part_fold (l1 ++ es ++ l3) es [] l1.length (fun i hi => by
    rw [List.append_assoc, List.getElem?_append_right (by omega)]
    simp [List.getElem?_append_left hi]) (by simpa using hk)
  rw [show l1.length + es.length - l1.length = es.length by omega]
  rw [List.nil_append] at this
  exact this

/-- what a container of a chunk is built from -/
def Built (k : ChunkData.Kind) (coord : ℕ → V) (ld : List String) (i0 : ℕ) (d : Data V) : Prop :=
  ∃ es, AllNice es ∧ ChunkData.construct k coord es ld (some i0) = .ok d

lemma rebuildOne_spec (k : ChunkData.Kind) (coord : ℕ → V) (ld : List String) (i0 : ℕ) (d : Data V) (h : Built k coord ld i0 d)
    (hx : d.size "xyh" = none ∨ d.size "xyh" = some 1 ∨ d.size "xyh" = some 3) :
    (d.entries.map Prod.fst).Nodup ∧ ∃ d', rebuildOne k coord (some d.entries) (some d.loopDims) i0 = .ok d' ∧ SameData d d' := by
  obtain ⟨es, hn, hc⟩ := h
  obtain ⟨a, d', b, c, _⟩ := C71_rebuild k coord es ld (some i0) hn.1 hn.ranked hn.free d hc hx
  obtain ⟨_, e1, e2⟩ := construct_nice k coord es ld (some i0) hn d hc
  refine ⟨a, d', ?_, c⟩
  rw [e2] at b
  simp only [rebuildOne, b]

lemma built_nice (k : ChunkData.Kind) (coord : ℕ → V) (ld : List String) (i0 : ℕ) (d : Data V) (h : Built k coord ld i0 d) : ∀ p ∈ d.entries, Nice p.2 := by
  obtain ⟨es, hn, hc⟩ := h
  exact (construct_nice k coord es ld (some i0) hn d hc).1

lemma names_eq (ds : List (Data V)) : names ds = (ds.flatMap (·.entries)).map Prod.fst := by simp [names, List.map_flatMap]
lemma dims_eq (ds : List (Data V)) : dims ds = (ds.flatMap (·.entries)).map (fun p => p.2.dims) := by simp [dims, List.map_flatMap]
lemma arrays_eq (ds : List (Data V)) : arrays ds = (ds.flatMap (·.entries)).map (fun p => p.2.arr) := by simp [arrays, List.map_flatMap]

/-- nothing or one or three components of positions -/
def Components (d : Data V) : Prop := d.size "xyh" = none ∨ d.size "xyh" = some 1 ∨ d.size "xyh" = some 3

lemma transfer_two (coord : ℕ → V) (i0 : ℕ) (l1 l2 : List String) (m f : Data V) (hm : Built .model coord l1 i0 m) (hf : Built .farm coord l2 i0 f) (xm : Components m) (xf : Components f) :
    ∃ ds', transfer coord [m, f] i0 = .ok ds' ∧ List.Forall₂ SameData [m, f] ds' := by
  obtain ⟨km, m', bm, sm⟩ := rebuildOne_spec .model coord l1 i0 m hm xm
  obtain ⟨kf, f', bf, sf⟩ := rebuildOne_spec .farm coord l2 i0 f hf xf
  refine ⟨[m', f'], ?_, by simp [sm, sf]⟩
  have p1 := part_spec [] m.entries f.entries km
  have p2 := part_spec m.entries f.entries [] kf
  simp only [List.nil_append, List.append_nil, List.length_nil, Nat.zero_add] at p1 p2
  simp only [transfer, rebuild, names_eq, dims_eq, arrays_eq, List.flatMap_cons, List.flatMap_nil, List.append_nil, p1, p2, List.map_cons, List.map_nil, List.getElem?_cons_zero,
    List.getElem?_cons_succ, bm, bf, List.length_map, List.length_append, gt_iff_lt, lt_self_iff_false, if_false]

lemma transfer_three (coord : ℕ → V) (i0 : ℕ) (l1 l2 l3 : List String) (m f t : Data V) (hm : Built .model coord l1 i0 m) (hf : Built .farm coord l2 i0 f) (ht : Built .target coord l3 i0 t)
    (hne : t.entries ≠ []) (xm : Components m) (xf : Components f) (xt : Components t) :
    ∃ ds', transfer coord [m, f, t] i0 = .ok ds' ∧ List.Forall₂ SameData [m, f, t] ds' := by
  obtain ⟨km, m', bm, sm⟩ := rebuildOne_spec .model coord l1 i0 m hm xm
  obtain ⟨kf, f', bf, sf⟩ := rebuildOne_spec .farm coord l2 i0 f hf xf
  obtain ⟨kt, t', bt, st⟩ := rebuildOne_spec .target coord l3 i0 t ht xt
  refine ⟨[m', f', t'], ?_, by simp [sm, sf, st]⟩
  have p1 := part_spec [] m.entries (f.entries ++ t.entries) km
  have p2 := part_spec m.entries f.entries t.entries kf
  have p3 := part_spec (m.entries ++ f.entries) t.entries [] kt
  have hpos : 0 < t.entries.length := List.length_pos_iff.2 hne
  have hgt : (m.entries.length + (f.entries.length + t.entries.length)) > m.entries.length + f.entries.length := by omega
  simp only [List.nil_append, List.append_nil, List.length_nil, Nat.zero_add, List.append_assoc, List.length_append, Nat.add_assoc] at p1 p2 p3
  simp only [transfer, rebuild, names_eq, dims_eq, arrays_eq, List.flatMap_cons, List.flatMap_nil, List.append_nil, p1, p2, List.map_cons, List.map_nil, List.getElem?_cons_zero,
    List.getElem?_cons_succ, bm, bf, bt, List.length_map, List.length_append, hgt, if_true, p3]

/-- **C71**: the workers of a cluster get the data of their chunk: every container arrives with the same arrays, dimensions, sizes, loop dimensions and first state. -/
theorem C71_cluster_input (coord : ℕ → V) (nan : V) (nT : ℕ) (M F : ChunkData.DS V) (P : Option (ChunkData.DS V)) (s t : ℕ × ℕ) (ov : List String)
    (hM : DSNice M) (hF : DSNice F) (hP : ∀ p ∈ P, DSNice p) (ds : List (Data V)) (h : ChunkData.chunkInput coord nan nT M F P s t ov = .ok ds) (hx : ∀ d ∈ ds, Components d) :
    ∃ ds', transfer coord ds s.1 = .ok ds' ∧ List.Forall₂ SameData ds ds' := by
  unfold ChunkData.chunkInput at h
  cases h1 : ChunkData.chunkModel coord M s with
  | error x => rw [h1] at h; simp at h
  | ok m =>
    rw [h1] at h
    simp only at h
    have bm : Built .model coord ["state"] s.1 m := fromDataset_built .model coord M hM (some s) _ (fun es es' hn he => by simp at he; subst he; exact hn) _ _ m h1
    have nm := built_nice _ _ _ _ _ bm
    have bf : ∀ ov' f, ChunkData.chunkFarm coord nan m F nT s ov' = .ok f → Built .farm coord ["state"] s.1 f := by
      intro ov' f hf
      exact fromDataset_built .farm coord F hF (some s) _ (fun es es' hn he => cbFarm_nice nan m nm nT s ov' es es' hn he) _ _ f hf
    cases P with
    | none =>
      simp only at h
      cases h2 : ChunkData.chunkFarm coord nan m F nT s (some ov) with
      | error x => rw [h2] at h; simp at h
      | ok f =>
        rw [h2] at h
        simp at h; subst h
        exact transfer_two coord s.1 _ _ m f bm (bf _ f h2) (hx m (by simp)) (hx f (by simp))
    | some p =>
      simp only at h
      cases h2 : ChunkData.chunkFarm coord nan m F nT s none with
      | error x => rw [h2] at h; simp at h
      | ok f =>
        rw [h2] at h
        simp only at h
        cases h3 : ChunkData.chunkPoints coord nan m p s t ov with
        | error x => rw [h3] at h; simp at h
        | ok td =>
          rw [h3] at h
          simp at h; subst h
          have bt : Built .target coord ["state", "target"] s.1 td := fromDataset_built .target coord p (hP p rfl) (some s) _
            (fun es es' hn he => (cbPoints_nice coord nan m nm p s t ov es es' hn he).1) _ _ td h3
          have hne : td.entries ≠ [] := points_ne coord nan m nm p (hP p rfl) s t ov td h3
          exact transfer_three coord s.1 _ _ _ m f td bm (bf _ f h2) bt hne (hx m (by simp)) (hx f (by simp)) (hx td (by simp))

/-- the data sets of a chunk of the example: model data, farm data and points -/
example : ∃ pd ds ds', ChunkData.newPointData 1 ChunkData.exPoints none 4 = .ok pd ∧ DSNice ChunkData.exModel ∧ DSNice ChunkData.exFarm ∧ DSNice pd ∧
    ChunkData.chunkInput id 999 2 ChunkData.exModel ChunkData.exFarm (some pd) (1, 3) (3, 5) ["REWS"] = .ok ds ∧ (∀ d ∈ ds, Components d) ∧
    transfer id ds 1 = .ok ds' ∧ names ds = ["state", "tab", "level", "WS", "weight", "state", "turbine", "targets", "tpoint_weights", "target", "state", "REWS", "target_point", "xyh"] ∧
    ds'.map (fun d => d.entries.map Prod.fst) = [["state", "tab", "level"], ["WS", "weight", "state", "turbine"], ["targets", "tpoint_weights", "target", "state", "REWS", "target_point", "xyh"]] ∧
    ds'.map (fun d => d.i0) = [some 1, some 1, some 1] := by
  refine ⟨_, _, _, rfl, ?_, ?_, ?_, rfl, ?_, rfl, rfl, rfl, rfl⟩
  · refine ⟨by decide, ?_⟩
    intro p hp
    simp only [ChunkData.exModel, List.cons_append, List.nil_append, List.mem_cons, List.not_mem_nil, or_false] at hp
    rcases hp with rfl | rfl
    · exact ⟨_, rfl, rfl, by decide⟩
    · exact ⟨_, rfl, rfl, by decide⟩
  · refine ⟨by decide, ?_⟩
    intro p hp
    simp only [ChunkData.exFarm, List.cons_append, List.nil_append, List.mem_cons, List.not_mem_nil, or_false] at hp
    rcases hp with rfl | rfl
    · exact ⟨_, rfl, rfl, by decide⟩
    · exact ⟨_, rfl, rfl, by decide⟩
  · refine ⟨by decide, ?_⟩
    intro p hp
    simp only [List.cons_append, List.nil_append, List.mem_cons, List.not_mem_nil, or_false] at hp
    rcases hp with rfl | rfl
    · exact ⟨_, rfl, rfl, by decide⟩
    · exact ⟨_, rfl, rfl, by decide⟩
  · intro d hd
    simp only [List.mem_cons, List.not_mem_nil, or_false] at hd
    rcases hd with rfl | rfl | rfl
    · exact Or.inl rfl
    · exact Or.inl rfl
    · exact Or.inr (Or.inr rfl)

/-! ### Lists of function calls -/

/-- **C71**: with at least one process, lists of function calls give the results in the order of the inputs; so does the engine based on xarray. -/
theorem C71_map {α β : Type} (nProcs : ℕ) (hp : 1 ≤ nProcs) (f : α → β) (inputs : List α) : Dask.map nProcs f inputs = some (inputs.map f) ∧ mapX f inputs = inputs.map f := by
  refine ⟨?_, rfl⟩
  match inputs with
  | [] => rfl
  | [x] => rfl
  | x :: y :: xs =>
    have h1 := Run.C05_pool_map_eq_map nProcs hp f (x :: y :: xs) (fun rs => rs.zipIdx.map fun x => (x.2, x.1)) (fun _ => List.Perm.refl _)
    have hk : min nProcs (x :: y :: xs).length ≠ 0 := by simp; omega
    have hunf : Dask.map nProcs f (x :: y :: xs) = some (((Foxes.Run.arraySplit (x :: y :: xs) (min nProcs (x :: y :: xs).length)).map (fun sub => sub.map f)).flatten) := by
      simp only [Dask.map]; rw [if_neg hk]
    rw [hunf, ← List.map_flatten]
    congr 2
    generalize hin : x :: y :: xs = inputs at *
    generalize hkk : min nProcs inputs.length = k at *
    have hmod := Nat.mod_lt inputs.length (Nat.pos_of_ne_zero hk)
    rw [Foxes.Run.arraySplit, Foxes.Run.flatten_spans]
    have hsum : (List.replicate (inputs.length % k) (inputs.length / k + 1) ++ List.replicate (k - inputs.length % k) (inputs.length / k)).sum = inputs.length := by
      rw [List.sum_append, List.sum_replicate_nat, List.sum_replicate_nat]
      have h0 := Nat.div_add_mod inputs.length k
      generalize inputs.length % k = r at *
      generalize inputs.length / k = q at *
      have : (k - r) * q = k * q - r * q := Nat.sub_mul k r q
      have h2 : r * q ≤ k * q := Nat.mul_le_mul_right q (by omega)
      rw [this, Nat.mul_add]
      omega
    rw [hsum, Nat.zero_add, Foxes.Run.slice_full]

example : Dask.map 3 (· * 2) [1, 2, 3, 4, 5, 6, 7] = some [2, 4, 6, 8, 10, 12, 14] ∧ Dask.map 0 (· * 2) [1, 2] = none := by decide

/-! ### Data that workers send back -/

/-- the data of a chunk with a name, in a store -/
def stored {D : Type} (st : Store D) (k : ℕ × ℕ) (v : String) : Option D := (st.lookup k).bind (·.lookup v)

lemma look_self {K A : Type} [BEq K] [LawfulBEq K] (p : K × A) (l : List (K × A)) : (p :: l).lookup p.1 = some p.2 := by
  obtain ⟨a, b⟩ := p
  simp

lemma look_ne {K A : Type} [BEq K] [LawfulBEq K] (k : K) (p : K × A) (l : List (K × A)) (h : k ≠ p.1) : (p :: l).lookup k = l.lookup k := by
  obtain ⟨a, b⟩ := p
  rw [List.lookup_cons, beq_eq_false_iff_ne.2 h]

lemma updateD_lookup {D : Type} (d u : List (String × D)) (hu : (u.map Prod.fst).Nodup) (v : String) : (updateD d u).lookup v = (u.lookup v).or (d.lookup v) := by
  induction u generalizing d with
  | nil => rfl
  | cons p u ih =>
    have hp : u.lookup p.1 = none := ChunkData.lookup_none_of _ _ (by simp at hu; simpa using hu.1)
    show (updateD (insertKey p.1 p.2 d) u).lookup v = _
    rw [ih _ (by simp at hu; exact hu.2), lookup_insertKey]
    by_cases h : v = p.1
    · subst h
      rw [if_pos rfl, hp, look_self]; rfl
    · rw [if_neg h, look_ne _ _ _ h]

lemma mergeOne_lookup {D : Type} (st : Store D) (p : (ℕ × ℕ) × List (String × D)) (k : ℕ × ℕ) :
    (mergeOne st p).lookup k = if k = p.1 then some (match st.lookup k with | some d => updateD d p.2 | none => p.2) else st.lookup k := by
  induction st with
  | nil =>
    by_cases h : k = p.1
    · subst h; rw [mergeOne, look_self]; simp
    · rw [mergeOne, look_ne _ _ _ h, if_neg h]
  | cons q st ih =>
    rw [mergeOne]
    by_cases hq : q.1 = p.1
    · rw [if_pos hq]
      by_cases h : k = p.1
      · rw [if_pos h, h, ← hq, look_self q, look_self (q.1, updateD q.2 p.2)]
      · rw [if_neg h, look_ne k q _ (by rw [hq]; exact h), look_ne k _ _ (by simpa [hq] using h)]
    · rw [if_neg hq]
      by_cases h : k = q.1
      · subst h
        rw [if_neg hq, look_self, look_self]
      · rw [look_ne _ _ _ h, look_ne _ _ _ h, ih]

lemma mergeOne_stored {D : Type} (st : Store D) (p : (ℕ × ℕ) × List (String × D)) (hp : (p.2.map Prod.fst).Nodup) (k : ℕ × ℕ) (v : String) :
    stored (mergeOne st p) k v = (if k = p.1 then p.2.lookup v else none).or (stored st k v) := by
  unfold stored
  rw [mergeOne_lookup]
  by_cases h : k = p.1
  · rw [if_pos h, if_pos h]
    cases st.lookup k with
    | none => simp
    | some d => simp [updateD_lookup d p.2 hp v]
  · rw [if_neg h, if_neg h]; simp

lemma mergeList_stored {D : Type} (l st : Store D) (hl : (l.map Prod.fst).Nodup) (hd : ∀ p ∈ l, (p.2.map Prod.fst).Nodup) (k : ℕ × ℕ) (v : String) :
    stored (l.foldl mergeOne st) k v = (stored l k v).or (stored st k v) := by
  induction l generalizing st with
  | nil => rfl
  | cons p l ih =>
    rw [List.foldl_cons, ih _ (by simp at hl; exact hl.2) (fun q hq => hd q (by simp [hq])), mergeOne_stored st p (hd p (by simp))]
    by_cases h : k = p.1
    · subst h
      have : l.lookup p.1 = none := by
        rw [List.lookup_eq_none_iff]
        intro q hq
        simp only [List.map_cons, List.nodup_cons] at hl
        simp only [bne_iff_ne, ne_eq]
        intro e
        exact hl.1 (e ▸ List.mem_map.2 ⟨q, hq, rfl⟩)
      simp only [stored, this, look_self]
      simp
    · rw [if_neg h]
      simp only [stored, look_ne _ _ _ h]
      simp

lemma merge_flat {D : Type} (stores : List (Store D)) (st : Store D) : stores.foldl (fun st s => s.foldl mergeOne st) st = stores.flatten.foldl mergeOne st := by
  induction stores generalizing st with
  | nil => rfl
  | cons s l ih => rw [List.foldl_cons, ih, List.flatten_cons, List.foldl_append]

lemma lookup_key_mem {α : Type} (l : List ((ℕ × ℕ) × α)) (k : ℕ × ℕ) (x : α) (h : l.lookup k = some x) : (k, x) ∈ l := by
  induction l with
  | nil => simp at h
  | cons p l ih =>
    rw [List.lookup_cons] at h
    by_cases hk : k = p.1
    · subst hk; simp at h; subst h; simp
    · rw [beq_eq_false_iff_ne.2 hk] at h; exact List.mem_cons_of_mem _ (ih h)

/-- the chunks of a run: first state and target of each, and the store of its worker after the calculation -/
structure Worker (D : Type) where
  key : ℕ × ℕ
  store : Store D

/-- what the store of the algorithm holds after the run -/
def storeAfter {D : Type} (iterative : Bool) (nVars : ℕ) (ws : List (Worker D)) (st : Store D) : Store D :=
  mergeAll nVars (ws.map (fun w => sendBack iterative w.key w.store)) st

lemma sendBack_keys {D : Type} (ws : List (Worker D)) : ∀ k, k ∈ ((ws.map (fun w => sendBack true w.key w.store)).flatten.map Prod.fst) → k ∈ ws.map (·.key) := by
  intro k hk
  obtain ⟨p, hp, rfl⟩ := List.mem_map.1 hk
  obtain ⟨s, hs, hps⟩ := List.mem_flatten.1 hp
  obtain ⟨w, hw, rfl⟩ := List.mem_map.1 hs
  unfold sendBack at hps
  rw [if_pos rfl] at hps
  cases h : w.store.lookup w.key with
  | none => rw [h] at hps; simp at hps
  | some c => rw [h] at hps; simp at hps; subst hps; exact List.mem_map.2 ⟨w, hw, rfl⟩

lemma sendBack_flat {D : Type} (ws : List (Worker D)) (hk : (ws.map (·.key)).Nodup) :
    ((ws.map (fun w => sendBack true w.key w.store)).flatten.map Prod.fst).Nodup ∧
    ∀ (k : ℕ × ℕ) (v : String), stored (ws.map (fun w => sendBack true w.key w.store)).flatten k v = (ws.find? (fun w => w.key = k)).bind (fun w => stored w.store k v) := by
  induction ws with
  | nil => simp [stored]
  | cons w ws ih =>
    simp only [List.map_cons, List.nodup_cons] at hk
    obtain ⟨a, b⟩ := ih hk.2
    rw [List.map_cons, List.flatten_cons]
    have hw : sendBack true w.key w.store = match w.store.lookup w.key with | some c => [(w.key, c)] | none => [] := by simp only [sendBack, if_true]; rfl
    cases h : w.store.lookup w.key with
    | none =>
      rw [h] at hw
      simp only at hw
      rw [hw, List.nil_append]
      refine ⟨a, fun k v => ?_⟩
      rw [b, List.find?_cons]
      by_cases hkw : w.key = k
      · subst hkw
        have : ws.find? (fun w' => decide (w'.key = w.key)) = none := by
          rw [List.find?_eq_none]
          intro x hx
          simp only [decide_eq_true_eq]
          intro e
          exact hk.1 (e ▸ List.mem_map.2 ⟨x, hx, rfl⟩)
        simp [this, stored, h]
      · simp [hkw]
    | some c =>
      rw [h] at hw
      simp only at hw
      rw [hw, List.singleton_append]
      refine ⟨?_, fun k v => ?_⟩
      · rw [List.map_cons, List.nodup_cons]
        exact ⟨fun hm => hk.1 (sendBack_keys ws _ hm), a⟩
      · have hb := b k v
        rw [List.find?_cons]
        by_cases hkw : w.key = k
        · subst hkw
          simp [stored, h, List.lookup_cons]
        · simp only [hkw, decide_false]
          rw [← hb]
          unfold stored
          rw [List.lookup_cons, beq_eq_false_iff_ne.2 (Ne.symm hkw)]

/-- **C71**: after an iterative run with results, the store of the algorithm holds what each worker stored for its own chunk, and what was there before. -/
theorem C71_chunk_store {D : Type} (nVars : ℕ) (hn : 1 ≤ nVars) (ws : List (Worker D)) (hk : (ws.map (·.key)).Nodup) (hd : ∀ w ∈ ws, ∀ p ∈ w.store, (p.2.map Prod.fst).Nodup) (st : Store D)
    (k : ℕ × ℕ) (v : String) : stored (storeAfter true nVars ws st) k v = ((ws.find? (fun w => w.key = k)).bind (fun w => stored w.store k v)).or (stored st k v) := by
  obtain ⟨a, b⟩ := sendBack_flat ws hk
  have hd' : ∀ p ∈ (ws.map (fun w => sendBack true w.key w.store)).flatten, (p.2.map Prod.fst).Nodup := by
    intro p hp
    obtain ⟨s, hs, hps⟩ := List.mem_flatten.1 hp
    obtain ⟨w, hw, rfl⟩ := List.mem_map.1 hs
    unfold sendBack at hps
    rw [if_pos rfl] at hps
    cases h : w.store.lookup w.key with
    | none => rw [h] at hps; simp at hps
    | some c =>
      rw [h] at hps; simp at hps; subst hps
      exact hd w hw (w.key, c) (lookup_key_mem _ _ _ h)
  have step : ∀ st : Store D, stored ((ws.map (fun w => sendBack true w.key w.store)).foldl (fun st s => s.foldl mergeOne st) st) k v
      = ((ws.find? (fun w => w.key = k)).bind (fun w => stored w.store k v)).or (stored st k v) := by
    intro st
    rw [merge_flat, mergeList_stored _ st a hd' k v, b]
  have main : ∀ n, 1 ≤ n → stored (storeAfter true n ws st) k v = ((ws.find? (fun w => w.key = k)).bind (fun w => stored w.store k v)).or (stored st k v) := by
    intro n hn
    induction n with
    | zero => omega
    | succ n ih =>
      unfold storeAfter mergeAll at ih ⊢
      rw [List.range_succ, List.foldl_append, List.foldl_cons, List.foldl_nil, step]
      cases n with
      | zero => rfl
      | succ n =>
        rw [ih (by omega)]
        cases (ws.find? (fun w => decide (w.key = k))).bind (fun w => stored w.store k v) <;> rfl
  exact main nVars hn

/-- finding: without a result variable, or in a run that is not iterative, nothing comes back from the workers -/
theorem C71_chunk_store_lost {D : Type} (ws : List (Worker D)) (st : Store D) : storeAfter true 0 ws st = st ∧ ∀ n, storeAfter false n ws st = st := by
  refine ⟨rfl, fun n => ?_⟩
  unfold storeAfter mergeAll
  have h1 : ∀ st : Store D, (ws.map (fun w => sendBack false w.key w.store)).foldl (fun st s => s.foldl mergeOne st) st = st := by
    intro st
    induction ws with
    | nil => rfl
    | cons w ws ih => rw [List.map_cons, List.foldl_cons]; exact ih
  induction n with
  | zero => rfl
  | succ n ih => rw [List.range_succ, List.foldl_append, List.foldl_cons, List.foldl_nil, h1]; exact ih

/-- a case: two chunks, one of which changes its data, the other of which adds some -/
example : stored (storeAfter true 2 [⟨(0, 0), [((0, 0), [("a", 7)])]⟩, ⟨(4, 0), [((4, 0), [("b", 8)]), ((9, 0), [("c", 9)])]⟩] [((0, 0), [("a", 1), ("z", 2)])]) (0, 0) "a" = some 7 ∧
    stored (storeAfter true 2 [⟨(0, 0), [((0, 0), [("a", 7)])]⟩, ⟨(4, 0), [((4, 0), [("b", 8)]), ((9, 0), [("c", 9)])]⟩] [((0, 0), [("a", 1), ("z", 2)])]) (0, 0) "z" = some 2 ∧
    stored (storeAfter true 2 [⟨(0, 0), [((0, 0), [("a", 7)])]⟩, ⟨(4, 0), [((4, 0), [("b", 8)]), ((9, 0), [("c", 9)])]⟩] [((0, 0), [("a", 1), ("z", 2)])]) (9, 0) "c" = none := by decide

/-! ### The engine based on xarray -/

lemma blocks_spec (n c : ℕ) (hc : 1 ≤ c) : (blocks n c).sum = n ∧ ∀ b ∈ blocks n c, 1 ≤ b ∧ b ≤ c := by
  unfold blocks
  have h0 := Nat.div_add_mod n c
  have hm := Nat.mod_lt n hc
  refine ⟨?_, ?_⟩
  · rw [List.sum_append, List.sum_replicate_nat]
    split
    · rename_i h; simp; rw [Nat.mul_comm]; omega
    · simp; rw [Nat.mul_comm]; omega
  · intro b hb
    rcases List.mem_append.1 hb with hb | hb
    · have := (List.mem_replicate.1 hb).2; omega
    · split at hb
      · simp at hb
      · rename_i h; simp at hb; omega

lemma min_bound (l : List ℕ) (hne : l ≠ []) : ∃ a, l.min? = some a ∧ a ∈ l ∧ ∀ x ∈ l, a ≤ x := by
  cases h : l.min? with
  | none => rw [List.min?_eq_none_iff] at h; exact absurd h hne
  | some a =>
    have := List.min?_eq_some_iff.1 h
    exact ⟨a, rfl, this.1, this.2⟩

/-- **C71**: a run of the engine based on xarray splits all states into non-empty blocks, likewise all targets, none larger than the smallest chunk of the engine, and the requested chunk sizes
are as before after the preparation. -/
theorem C71_xarray_blocks (nProcs : ℕ) (z : Sizes) (n nT : ℕ) (hp : 1 ≤ nProcs) (hs : ∀ c, z.states = some c → 1 ≤ c) (hq : ∀ c, z.points = some c → 1 ≤ c) (hn : 1 ≤ n) :
    ∃ css cts a b, Chunks.calcChunkSizes { nProcs := nProcs, chunkSizeStates := z.states, chunkSizePoints := z.points } n nT = .ok (css, cts) ∧
      runX nProcs z n nT true = (z, some (a, b)) ∧ a ∈ css ∧ b ∈ cts ∧ (∀ x ∈ css, a ≤ x) ∧ (∀ x ∈ cts, b ≤ x) ∧
      (blocks n a).sum = n ∧ (∀ x ∈ blocks n a, 1 ≤ x ∧ x ≤ a) ∧ (1 ≤ nT → (blocks nT b).sum = nT ∧ ∀ x ∈ blocks nT b, 1 ≤ x ∧ x ≤ b) ∧
      (∀ c, z.states = some c → ∀ x ∈ blocks n a, x ≤ c + 1) := by
  obtain ⟨css, cts, h1, _, _, n1, n2, p1, p2, q1, _⟩ := Chunks.calc_ok { nProcs := nProcs, chunkSizeStates := z.states, chunkSizePoints := z.points } ⟨hp, hs, hq⟩ n nT hn
  obtain ⟨a, ha, ham, hal⟩ := min_bound css n1
  obtain ⟨b, hb, hbm, hbl⟩ := min_bound cts n2
  have ba := blocks_spec n a (p1 a ham)
  refine ⟨css, cts, a, b, h1, ?_, ham, hbm, hal, hbl, ba.1, ba.2, ?_, ?_⟩
  · unfold runX
    rw [h1]
    simp only [ha, hb, if_true]
  · intro ht
    exact blocks_spec nT b (p2 ht b hbm)
  · intro c hc x hx
    exact le_trans (ba.2 x hx).2 (q1 c hc a ham)

/-- finding: if the preparation fails, the engine keeps the sizes of the failed run -/
theorem C71_xarray_failed_keeps (nProcs : ℕ) (z : Sizes) (n nT a b : ℕ) (z' : Sizes) (h : runX nProcs z n nT false = (z', some (a, b))) : z' = ⟨some a, some b⟩ := by
  unfold runX at h
  split at h
  · simp at h
  · split at h
    · simp at h
      rw [← h.1, h.2.1, h.2.2]
    · simp at h

/-- a case: ten states on three processes are run as four blocks, and after a failure the chunk sizes are set -/
example : runX 3 ⟨none, none⟩ 10 0 true = (⟨none, none⟩, some (3, 0)) ∧ blocks 10 3 = [3, 3, 3, 1] ∧ runX 3 ⟨none, none⟩ 10 0 false = (⟨some 3, some 0⟩, some (3, 0)) := by decide +kernel

/-- **C71**: which dimensions are chunked: those of states and targets that have a coordinate; data without states is refused. -/
theorem C71_xarray_chunked (cs cp : ℕ) (sizes : List (String × ℕ)) (coords : List String) :
    (chunkData cs cp sizes coords = none ↔ sizes.lookup "state" = none) ∧
    ∀ ck, chunkData cs cp sizes coords = some ck → ∀ d, ck.lookup d = if d ∈ coords then (if d = "state" then (sizes.lookup "state").map (min · cs) else if d = "target" then
      (sizes.lookup "target").map (min · cp) else none) else none := by
  unfold chunkData
  cases h : sizes.lookup "state" with
  | none => simp
  | some n =>
    refine ⟨by simp, ?_⟩
    intro ck hck d
    simp only [Option.some.injEq] at hck
    subst hck
    cases ht : sizes.lookup "target" with
    | none =>
      by_cases h1 : "state" ∈ coords
      · rw [List.filter_cons_of_pos (by simpa using h1), List.filter_nil]
        by_cases hd : d = "state"
        · subst hd; simp [h1]
        · rw [look_ne _ _ _ hd]
          by_cases hd2 : d = "target" <;> simp [hd, hd2]
      · rw [List.filter_cons_of_neg (by simpa using h1), List.filter_nil]
        by_cases hd : d = "state"
        · subst hd; simp [h1]
        · by_cases hd2 : d = "target" <;> simp [hd, hd2]
    | some m =>
      by_cases h1 : "state" ∈ coords <;> by_cases h2 : "target" ∈ coords
      · rw [List.filter_cons_of_pos (by simpa using h1), List.filter_cons_of_pos (by simpa using h2), List.filter_nil]
        by_cases hd : d = "state"
        · subst hd; simp [h1]
        · rw [look_ne _ _ _ hd]
          by_cases hd2 : d = "target"
          · subst hd2; simp [h2]
          · rw [look_ne _ _ _ hd2]; simp [hd, hd2]
      · rw [List.filter_cons_of_pos (by simpa using h1), List.filter_cons_of_neg (by simpa using h2), List.filter_nil]
        by_cases hd : d = "state"
        · subst hd; simp [h1]
        · rw [look_ne _ _ _ hd]
          by_cases hd2 : d = "target"
          · subst hd2; simp [h2]
          · simp [hd, hd2]
      · rw [List.filter_cons_of_neg (by simpa using h1), List.filter_cons_of_pos (by simpa using h2), List.filter_nil]
        by_cases hd : d = "state"
        · subst hd; simp [h1, List.lookup_cons]
        · by_cases hd2 : d = "target"
          · subst hd2; simp [h2]
          · rw [look_ne _ _ _ hd2]; simp [hd, hd2]
      · rw [List.filter_cons_of_neg (by simpa using h1), List.filter_cons_of_neg (by simpa using h2), List.filter_nil]
        by_cases hd : d = "state"
        · subst hd; simp [h1]
        · by_cases hd2 : d = "target"
          · subst hd2; simp [h2]
          · simp [hd, hd2]

/-- finding: the coordinate of the targets cannot be chunked, so that point data that has one is refused as soon as targets are a loop dimension (dask.py:452-457) -/
theorem C71_xarray_target_coordinate (cs cp m : ℕ) : chunkData cs cp [("target", m)] ["target"] = none := rfl

/-- finding: point data without that coordinate, as foxes creates it, is not chunked along the targets -/
theorem C71_xarray_targets_whole (cs cp : ℕ) (sizes : List (String × ℕ)) (coords : List String) (hc : "target" ∉ coords) (ck : List (String × ℕ)) (h : chunkData cs cp sizes coords = some ck) :
    ck.lookup "target" = none := by
  rw [(C71_xarray_chunked cs cp sizes coords).2 ck h "target", if_neg hc]

example : chunkData 3 2 [("state", 10), ("target", 5), ("xyh", 3)] ["state"] = some [("state", 3)] ∧ chunkData 3 2 [("state", 2), ("target", 5)] ["state", "target"] = some [("state", 2), ("target", 2)] := by
  decide

/-- the loop dimensions: states if there is a chunk size for states, and targets if there are both -/
theorem C71_loop_dims_partial (cs cp : Option ℕ) : ("state" ∈ loopDims cs cp ↔ cs ≠ none) ∧ ("target" ∈ loopDims cs cp ↔ cs ≠ none ∧ cp ≠ none) := by
  cases cs <;> cases cp <;> simp [loopDims]

/-- finding: with a chunk size for points only there is no loop dimension -/
theorem C71_loop_dims_points_only (p : ℕ) : loopDims none (some p) = [] := rfl

/-- the entry depends on a loop dimension -/
def Depends (loop : List String) (e : Entry V) : Prop := ∃ c ∈ ChunkData.dimsOf e, c ∈ loop

open scoped Classical in
/-- **C71**: if data sets agree on the names that they share, every data set of a chunk has all its variables and coordinates: the part of the chunk of those that depend on loop dimensions, and
the others as they are. -/
theorem C71_xarray_input (cut : Entry V → Entry V) (loop : List String) (dss : List (ChunkData.DS V)) (hc : ∀ ds ∈ dss, ∀ p ∈ ds.coords, p.2.dims = some [p.1])
    (hs : ∀ ds ∈ dss, ∀ ds' ∈ dss, ∀ p ∈ ds.vars ++ ds.coords, ∀ q ∈ ds'.vars ++ ds'.coords, p.1 = q.1 → p.2 = q.2) (ds : ChunkData.DS V) (hds : ds ∈ dss) :
    chunkEntries cut loop dss ds = (ds.vars ++ ds.coords).map (fun p => (p.1, some (if Depends loop p.2 then cut p.2 else p.2))) := by
  have hdep : ∀ e : Entry V, ((ChunkData.dimsOf e).any (fun x => decide (x ∈ loop))) = true ↔ Depends loop e := by
    intro e; simp [Depends, List.any_eq_true]
  have hcd : ∀ ds' ∈ dss, ∀ q ∈ ds'.coords, (q.1 ∈ loop ↔ Depends loop q.2) := by
    intro ds' h' q hq
    simp [Depends, ChunkData.dimsOf, hc ds' h' q hq]
  have inL : ∀ q, q ∈ loopData loop dss ↔ ∃ ds' ∈ dss, q ∈ ds'.vars ++ ds'.coords ∧ Depends loop q.2 := by
    intro q
    simp only [loopData, List.mem_flatMap, List.mem_append, List.mem_filter, hdep, decide_eq_true_eq]
    constructor
    · rintro ⟨ds', h', h | h⟩
      · exact ⟨ds', h', Or.inl h.1, h.2⟩
      · exact ⟨ds', h', Or.inr h.1, (hcd ds' h' q h.1).1 h.2⟩
    · rintro ⟨ds', h', h | h, hd⟩
      · exact ⟨ds', h', Or.inl ⟨h, hd⟩⟩
      · exact ⟨ds', h', Or.inr ⟨h, (hcd ds' h' q h).2 hd⟩⟩
  have inE : ∀ q, q ∈ extraData loop dss ↔ ∃ ds' ∈ dss, q ∈ ds'.vars ++ ds'.coords ∧ ¬ Depends loop q.2 := by
    intro q
    have hn : ∀ e : Entry V, ((!(ChunkData.dimsOf e).any (fun x => decide (x ∈ loop))) = true ↔ ¬ Depends loop e) := by
      intro e; rw [← hdep, Bool.not_eq_true']; simp
    simp only [extraData, List.mem_flatMap, List.mem_append, List.mem_filter, hn, Bool.not_eq_true', decide_eq_false_iff_not]
    constructor
    · rintro ⟨ds', h', h | h⟩
      · exact ⟨ds', h', Or.inl h.1, h.2⟩
      · exact ⟨ds', h', Or.inr h.1, fun hd => h.2 ((hcd ds' h' q h.1).2 hd)⟩
    · rintro ⟨ds', h', h | h, hd⟩
      · exact ⟨ds', h', Or.inl ⟨h, hd⟩⟩
      · exact ⟨ds', h', Or.inr ⟨h, fun hx => hd ((hcd ds' h' q h).1 hx)⟩⟩
  have first : ∀ (l : List (String × Entry V)) (p : String × Entry V), p ∈ l → (∀ q ∈ l, q.1 = p.1 → q.2 = p.2) → l.lookup p.1 = some p.2 := by
    intro l p hp hall
    cases h : l.lookup p.1 with
    | none => exact absurd hp (fun hp => by
        have := List.lookup_eq_none_iff.1 h p hp
        simp at this)
    | some e =>
      have := mem_of_lookup _ _ _ h
      have h2 : e = p.2 := hall _ this rfl
      rw [h2]
  unfold chunkEntries
  apply List.map_congr_left
  intro p hp
  by_cases hd : Depends loop p.2
  · rw [if_pos hd, first (loopData loop dss) p ((inL p).2 ⟨ds, hds, hp, hd⟩) (fun q hq he => by
      obtain ⟨ds', h', hq', _⟩ := (inL q).1 hq
      exact hs ds' h' ds hds q hq' p hp he)]
  · have h0 : (loopData loop dss).lookup p.1 = none := by
      rw [List.lookup_eq_none_iff]
      intro q hq
      obtain ⟨ds', h', hq', hdq⟩ := (inL q).1 hq
      simp only [bne_iff_ne, ne_eq]
      intro e
      have := hs ds hds ds' h' p hp q hq' e
      rw [this] at hd
      exact hd hdq
    rw [if_neg hd, h0, first (extraData loop dss) p ((inE p).2 ⟨ds, hds, hp, hd⟩) (fun q hq he => by
      obtain ⟨ds', h', hq', _⟩ := (inE q).1 hq
      exact hs ds' h' ds hds q hq' p hp he)]

/-- finding: if farm data and point data both have a variable, the points get the values of the turbines -/
theorem C71_xarray_names_mixed (cut : Entry V → Entry V) (loop : List String) (M F P : ChunkData.DS V) (v : String) (x y : Entry V)
    (hM : ∀ p ∈ M.vars ++ M.coords, p.1 ≠ v) (hF : F.vars.lookup v = some x) (hx : Depends loop x) (hFn : (F.vars.map Prod.fst).Nodup) (hP : (v, y) ∈ P.vars) :
    (v, some (cut x)) ∈ chunkEntries cut loop [M, F, P] P := by
  unfold chunkEntries
  apply List.mem_map.2
  refine ⟨(v, y), by simp [hP], ?_⟩
  have h1 : (loopData loop [M, F, P]).lookup v = some x := by
    simp only [loopData, List.flatMap_cons, List.append_assoc, List.lookup_append]
    have n1 : (M.vars.filter (fun p => (ChunkData.dimsOf p.2).any (· ∈ loop))).lookup v = none := by
      rw [List.lookup_eq_none_iff]
      intro p hp
      rw [bne_iff_ne]
      exact Ne.symm (hM p (by simp [(List.mem_filter.1 hp).1]))
    have n2 : (M.coords.filter (fun p => p.1 ∈ loop)).lookup v = none := by
      rw [List.lookup_eq_none_iff]
      intro p hp
      rw [bne_iff_ne]
      exact Ne.symm (hM p (by simp [(List.mem_filter.1 hp).1]))
    have n3 : (F.vars.filter (fun p => (ChunkData.dimsOf p.2).any (· ∈ loop))).lookup v = some x := by
      apply lookup_of_mem
      · exact (List.filter_sublist.map Prod.fst).nodup hFn
      · rw [List.mem_filter]
        refine ⟨mem_of_lookup _ _ _ hF, ?_⟩
        obtain ⟨c, hc, hl⟩ := hx
        simp only [List.any_eq_true, decide_eq_true_eq]
        exact ⟨c, hc, hl⟩
    rw [n1, n2, n3]; rfl
  simp only [h1]

/-- a case of each: two data sets that share the states; and wind speeds of turbines that replace those of points -/
example : let st : Entry ℕ := ⟨⟨[4], fun i => i.headD 0⟩, some ["state"]⟩
    let M : ChunkData.DS ℕ := ⟨[("state", st)], [("tab", ⟨⟨[4, 3], fun _ => 0⟩, some ["state", "level"]⟩)]⟩
    let F : ChunkData.DS ℕ := ⟨[("state", st)], [("WS", ⟨⟨[4, 2], fun _ => 9⟩, some ["state", "turbine"]⟩)]⟩
    let P : ChunkData.DS ℕ := ⟨[], [("WS", ⟨⟨[4, 5, 1], fun _ => 3⟩, some ["state", "target", "target_point"]⟩)]⟩
    (chunkEntries id ["state", "target"] [M, F] F).map (fun p => (p.1, p.2.map (fun e => e.arr.shape))) = [("WS", some [4, 2]), ("state", some [4])] ∧
    (chunkEntries id ["state", "target"] [M, F, P] P).map (fun p => (p.1, p.2.map (fun e => e.arr.shape))) = [("WS", some [4, 2])] := by decide

/-- the first container with data of that name and of that shape -/
def firstFit (oshape : List ℕ) (data : List (List (String × Arr V))) (v : String) : Option (Arr V) :=
  (data.filterMap (fun d => match d.lookup v with | some a => if a.shape = oshape then some a else none | none => none)).head?

lemma lookup_filterMap {A : Type} (g : String → Option A) (l : List String) (v : String) :
    (l.filterMap (fun v => (g v).map (fun a => (v, a)))).lookup v = if v ∈ l then g v else none := by
  induction l with
  | nil => simp
  | cons w l ih =>
    rw [List.filterMap_cons]
    cases hw : g w with
    | none =>
      simp only [Option.map_none]
      rw [ih]
      by_cases h : v = w
      · subst h; simp [hw]
      · simp [h]
    | some a =>
      simp only [Option.map_some]
      by_cases h : v = w
      · subst h; simp [hw]
      · rw [look_ne v (w, a) _ h, ih]; simp [h]

lemma findSome_fit (oshape : List ℕ) (data : List (List (String × Arr V))) (v : String) :
    data.findSome? (fun d => (d.lookup v).filter (fun a => decide (a.shape = oshape))) = firstFit oshape data v := by
  unfold firstFit
  rw [← List.head?_filterMap]
  congr 1
  congr 1
  funext d
  cases d.lookup v with
  | none => rfl
  | some a => by_cases h : a.shape = oshape <;> simp [Option.filter, h]

/-- **C71**: results that a calculation does not return are taken from the first container with fitting data; if there is none for some of them, the run fails with their names, and only then. -/
theorem C71_xarray_missing (oshape : List ℕ) (data : List (List (String × Arr V))) (ov : List String) (res : List (String × Arr V)) :
    (∀ r, fillMissing oshape data ov res = .ok r → (∀ v x, res.lookup v = some x → r.lookup v = some x) ∧ (∀ v ∈ ov, res.lookup v = none → r.lookup v = firstFit oshape data v ∧ (r.lookup v).isSome)) ∧
    (∀ l, fillMissing oshape data ov res = .error l → l ≠ [] ∧ ∀ v, v ∈ l ↔ v ∈ ov ∧ res.lookup v = none ∧ firstFit oshape data v = none) := by
  have hf : ∀ v, ((ov.filter (fun v => (res.lookup v).isNone)).filterMap (fun v => (data.findSome? (fun d => (d.lookup v).filter (fun a => decide (a.shape = oshape)))).map (fun a => (v, a)))).lookup v
      = if v ∈ ov.filter (fun v => (res.lookup v).isNone) then firstFit oshape data v else none := by
    intro v
    rw [lookup_filterMap (fun v => data.findSome? (fun d => (d.lookup v).filter (fun a => decide (a.shape = oshape))))]
    split
    · exact findSome_fit oshape data v
    · rfl
  unfold fillMissing
  simp only
  set missing := ov.filter (fun v => (res.lookup v).isNone) with hm
  set found := missing.filterMap (fun v => (data.findSome? (fun d => (d.lookup v).filter (fun a => decide (a.shape = oshape)))).map (fun a => (v, a))) with hfd
  have mem : ∀ v, v ∈ missing ↔ v ∈ ov ∧ res.lookup v = none := by intro v; simp [hm, List.mem_filter]
  have lost : ∀ v, v ∈ missing.filter (fun v => (found.lookup v).isNone) ↔ v ∈ ov ∧ res.lookup v = none ∧ firstFit oshape data v = none := by
    intro v
    rw [List.mem_filter, hf v]
    constructor
    · rintro ⟨a, b⟩
      rw [if_pos a] at b
      exact ⟨((mem v).1 a).1, ((mem v).1 a).2, by simpa using b⟩
    · rintro ⟨a, b, c⟩
      have := (mem v).2 ⟨a, b⟩
      exact ⟨this, by rw [if_pos this, c]; rfl⟩
  by_cases hl : missing.filter (fun v => (found.lookup v).isNone) = []
  · rw [if_pos hl]
    refine ⟨?_, by simp⟩
    intro r hr
    simp only [Except.ok.injEq] at hr
    subst hr
    refine ⟨fun v x hx => by rw [List.lookup_append, hx]; rfl, ?_⟩
    intro v hv hn
    have hmv := (mem v).2 ⟨hv, hn⟩
    have e : (res ++ found).lookup v = firstFit oshape data v := by
      rw [List.lookup_append, hn, hf v, if_pos hmv]; rfl
    refine ⟨e, ?_⟩
    rw [e]
    cases hc : firstFit oshape data v with
    | some x => rfl
    | none =>
      have := (lost v).2 ⟨hv, hn, hc⟩
      rw [hl] at this
      simp at this
  · rw [if_neg hl]
    refine ⟨by simp, ?_⟩
    intro l h
    simp only [Except.error.injEq] at h
    subst h
    exact ⟨hl, lost⟩

example : fillMissing [2] [[("a", (⟨[3], fun _ => 1⟩ : Arr ℕ))], [("a", ⟨[2], fun _ => 2⟩)]] ["b", "c"] [("b", ⟨[2], fun _ => 5⟩)] = .error ["c"] := by rfl
example : ((fillMissing [2] [[("a", (⟨[3], fun _ => 1⟩ : Arr ℕ))], [("a", ⟨[2], fun _ => 2⟩)]] ["b", "a"] [("b", ⟨[2], fun _ => 5⟩)]).toOption.map (fun r => r.map (fun p => (p.1, p.2.val [0])))) =
  some [("b", 5), ("a", 2)] := by rfl

/-! ### Selections -/

/-- **C71**: a selection of labels: data with that coordinate has the requested entries, in the requested order, or the run fails because one of them does not exist. -/
theorem C71_select {L : Type} [DecidableEq L] (n : ℕ) (c l : List L) :
    (selectOne n (some c) (some l) = none ↔ ∃ x ∈ l, x ∉ c) ∧
    ∀ ps, selectOne n (some c) (some l) = some ps → ps.map (fun i => c[i]?) = l.map some := by
  show (positions c l = none ↔ _) ∧ ∀ ps, positions c l = some ps → _
  unfold positions
  induction l with
  | nil => simp
  | cons x l ih =>
    rw [List.mapM_cons]
    by_cases hx : x ∈ c
    · have hi : c.idxOf x < c.length := List.idxOf_lt_length_iff.2 hx
      simp only [hi, if_true]
      cases hm : (l.mapM (fun x => let i := c.idxOf x; if i < c.length then some i else none)) with
      | none =>
        rw [hm] at ih
        refine ⟨?_, by intro ps h; simp at h⟩
        constructor
        · intro _
          obtain ⟨y, hy, hyc⟩ := ih.1.1 rfl
          exact ⟨y, by simp [hy], hyc⟩
        · intro _; rfl
      | some qs =>
        rw [hm] at ih
        refine ⟨?_, ?_⟩
        · constructor
          · intro h; simp at h
          · rintro ⟨y, hy, hyc⟩
            rcases List.mem_cons.1 hy with rfl | hy
            · exact absurd hx hyc
            · exact absurd (ih.1.2 ⟨y, hy, hyc⟩) (by simp)
        · intro ps h
          simp at h
          subst h
          rw [List.map_cons, List.map_cons, ih.2 qs rfl]
          congr 1
          rw [List.getElem?_eq_getElem hi, List.getElem_idxOf hi]
    · have hi : ¬ c.idxOf x < c.length := fun h => hx (List.idxOf_lt_length_iff.1 h)
      simp only [hi, if_false]
      refine ⟨?_, by intro ps h; simp at h⟩
      constructor
      · intro _; exact ⟨x, by simp, hx⟩
      · intro _; rfl

/-- finding: data without the coordinate is not cut, so that a selection of some states makes the sizes of the data sets differ -/
theorem C71_select_without_coordinate {L : Type} [DecidableEq L] (n : ℕ) (c l : List L) (ps : List ℕ) (h : selectOne n (some c) (some l) = some ps) (hl : l.length ≠ n) :
    ∃ qs, selectOne n (none : Option (List L)) (some l) = some qs ∧ qs.length = n ∧ ps.length = l.length ∧ qs.length ≠ ps.length := by
  have e := congrArg List.length ((C71_select n c l).2 ps h)
  simp at e
  exact ⟨List.range n, rfl, by simp, e, by simp; omega⟩

/-- the same for positions -/
theorem C71_iselect (n : ℕ) (l : List ℕ) : iselectOne true n (some l) = (if ∀ i ∈ l, i < n then some l else none) ∧ iselectOne false n (some l) = some (List.range n) := by
  refine ⟨?_, rfl⟩
  simp only [iselectOne, if_true, List.all_eq_true, decide_eq_true_eq]

example : selectOne 4 (some [10, 20, 30, 40]) (some [30, 10]) = some [2, 0] ∧ selectOne 4 (some [10, 20, 30, 40]) (some [35]) = none ∧ selectOne 4 none (some [30, 10]) = some [0, 1, 2, 3] ∧
    iselectOne true 4 (some [3, 1]) = some [3, 1] ∧ iselectOne true 4 (some [4]) = none := by decide

end Foxes.Props.Dask
