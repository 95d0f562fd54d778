import Verif.Model.Lifecycle
import Mathlib.Tactic.ByContra
import Mathlib.Order.Basic
import Mathlib.Data.List.Nodup
/-
Helper lemmas for the life cycle model.
-/
namespace Foxes.Lifecycle

/-- `k` is `m`, or a sub-model of a sub-model of … of `m`. -/
inductive Reach (G : Graph) : Nat → Nat → Prop
  | refl (m) : Reach G m m
  | step {m c k} : c ∈ G.subs m → Reach G c k → Reach G m k

/-- No object is, directly or indirectly, its own sub-model, and nesting is limited by `lim` (Python's
recursion limit). -/
def Nested (G : Graph) (lim : Nat) : Prop := ∃ r : Nat → Nat, (∀ m, r m < lim) ∧ ∀ m, ∀ c ∈ G.subs m, r c < r m

variable {D : Type} {G : Graph}

@[simp] theorem upd_same {α β : Type} [DecidableEq α] (f : α → β) (a : α) (b : β) : upd f a b a = b := by simp [upd]

theorem upd_ne {α β : Type} [DecidableEq α] (f : α → β) {a x : α} (b : β) (h : x ≠ a) : upd f a b x = f x := by
  simp [upd, h]

/-- what holds between the start of `set_running` and the end of `unset_running` -/
structure Moved (G : Graph) (s0 s : St D) : Prop where
  on : ∀ k, s.run k = true → s.own k = none ∧ s.stash (G.name k) = s0.own k
  off : ∀ k, s.run k = false → s.own k = s0.own k
  init : s.init = s0.init
  mem : s.mem = s0.mem
  loads : s.loads = s0.loads
  finals : s.finals = s0.finals

def RunClosed (G : Graph) (s : St D) : Prop := ∀ k, s.run k = true → ∀ c ∈ G.subs k, s.run c = true

structure SetSpec (G : Graph) (s0 : St D) (P : Nat → Prop) (s s' : St D) : Prop where
  moved : Moved G s0 s'
  closed : RunClosed G s'
  mono : ∀ k, s.run k = true → s'.run k = true
  only : ∀ k, s'.run k = true → s.run k = true ∨ P k

theorem set_spec {r : Nat → Nat} (hr : ∀ m, ∀ c ∈ G.subs m, r c < r m) (hn : Function.Injective G.name)
    {s0 : St D} (hown : ∀ k, (s0.own k).isSome) :
    ∀ (f m : Nat) (s : St D), r m < f → Moved G s0 s → RunClosed G s → s.run m = false →
      ∃ s', setRunning G f m s = .ok s' ∧ SetSpec G s0 (Reach G m) s s' ∧ s'.run m = true := by
  intro f
  induction f with
  | zero => intro m s h; omega
  | succ f ih =>
    intro m s hf hm hc hrun
    -- the loop over the sub-models
    have loop : ∀ (l : List Nat) (s : St D), (∀ c ∈ l, c ∈ G.subs m) → Moved G s0 s → RunClosed G s →
        s.run m = false →
        ∃ s', forEach (fun c s => if s.run c then .ok s else setRunning G f c s) l s = .ok s' ∧
          SetSpec G s0 (fun k => ∃ c ∈ l, Reach G c k) s s' ∧ (∀ c ∈ l, s'.run c = true) := by
      intro l
      induction l with
      | nil => intro s _ h1 h2 _; exact ⟨s, rfl, ⟨h1, h2, fun _ h => h, fun _ h => Or.inl h⟩, by simp⟩
      | cons c l ihl =>
        intro s hl h1 h2 h3
        have hcm := hl c List.mem_cons_self
        have hstep : ∃ s1, (if s.run c then Except.ok s else setRunning G f c s) = .ok s1 ∧
            SetSpec G s0 (Reach G c) s s1 ∧ s1.run c = true := by
          by_cases hrc : s.run c = true
          · exact ⟨s, by rw [if_pos hrc], ⟨h1, h2, fun _ h => h, fun _ h => Or.inl h⟩, hrc⟩
          · rw [if_neg hrc]
            exact ih c s (by have := hr m c hcm; omega) h1 h2 (by simpa using hrc)
        obtain ⟨s1, e1, p1, q1⟩ := hstep
        have hm1 : s1.run m = false := by
          by_contra hx
          rcases p1.only m (by simpa using hx) with h | h
          · rw [h3] at h; cases h
          · -- m is not reachable from its own sub-model
            have : ∀ a b, Reach G a b → r b ≤ r a := by
              intro a b hab
              induction hab with
              | refl => exact Nat.le_refl _
              | step h _ ih => have := hr _ _ h; omega
            have h1 := this c m h
            have h2 := hr m c hcm
            omega
        obtain ⟨s2, e2, p2, q2⟩ := ihl s1 (fun x hx => hl x (List.mem_cons_of_mem _ hx)) p1.moved p1.closed hm1
        refine ⟨s2, by simp only [forEach, e1, andThen]; exact e2, ⟨p2.moved, p2.closed, fun k h => p2.mono k (p1.mono k h), ?_⟩, ?_⟩
        · intro k hk
          rcases p2.only k hk with h | ⟨x, hx, h⟩
          · rcases p1.only k h with h | h
            · exact Or.inl h
            · exact Or.inr ⟨c, List.mem_cons_self, h⟩
          · exact Or.inr ⟨x, List.mem_cons_of_mem _ hx, h⟩
        · intro x hx
          rcases List.mem_cons.1 hx with rfl | hx
          · exact p2.mono _ q1
          · exact q2 x hx
    obtain ⟨s1, e1, p1, q1⟩ := loop (G.subs m) s (fun _ h => h) hm hc hrun
    have hreach : ∀ a b, Reach G a b → r b ≤ r a := by
      intro a b hab
      induction hab with
      | refl => exact Nat.le_refl _
      | step h _ ih => have := hr _ _ h; omega
    have hm1 : s1.run m = false := by
      by_contra hx
      rcases p1.only m (by simpa using hx) with h | ⟨c, hcm, h⟩
      · rw [hrun] at h; cases h
      · have h1 := hreach c m h
        have h2 := hr m c hcm
        omega
    have hown1 : s1.own m = s0.own m := p1.moved.off m hm1
    obtain ⟨d, hd⟩ := Option.isSome_iff_exists.1 (hown m)
    refine ⟨_, by simp only [setRunning, hrun, e1, andThen, moveOut, hown1, hd]; rfl, ?_, by simp⟩
    refine ⟨⟨?_, ?_, p1.moved.init, p1.moved.mem, p1.moved.loads, p1.moved.finals⟩, ?_, ?_, ?_⟩
    · intro k hk
      by_cases hkm : k = m
      · subst hkm; simp [hd]
      · have hk' : s1.run k = true := by simpa [upd_ne _ _ hkm] using hk
        have := p1.moved.on k hk'
        simp only [upd_ne _ _ hkm, upd_ne _ _ (fun h => hkm (hn h))]
        exact this
    · intro k hk
      by_cases hkm : k = m
      · subst hkm; simp at hk
      · have hk' : s1.run k = false := by simpa [upd_ne _ _ hkm] using hk
        simp only [upd_ne _ _ hkm]
        exact p1.moved.off k hk'
    · intro k hk c hcs
      by_cases hcm : c = m
      · subst hcm; simp
      · simp only [upd_ne _ _ hcm]
        by_cases hkm : k = m
        · subst hkm; exact q1 c hcs
        · exact p1.closed k (by simpa [upd_ne _ _ hkm] using hk) c hcs
    · intro k hk
      by_cases hkm : k = m
      · subst hkm; simp
      · simp only [upd_ne _ _ hkm]; exact p1.mono k hk
    · intro k hk
      by_cases hkm : k = m
      · subst hkm; exact Or.inr (Reach.refl _)
      · rcases p1.only k (by simpa [upd_ne _ _ hkm] using hk) with h | ⟨c, hc', h⟩
        · exact Or.inl h
        · exact Or.inr (Reach.step hc' h)

/-- `U`-objects that are off have all their sub-models off -/
def OffClosed (G : Graph) (U : Nat → Prop) (s : St D) : Prop :=
  ∀ k, U k → s.run k = false → ∀ c ∈ G.subs k, s.run c = false

structure UnsetSpec (G : Graph) (s0 : St D) (U P : Nat → Prop) (s s' : St D) : Prop where
  moved : Moved G s0 s'
  closed : OffClosed G U s'
  mono : ∀ k, s'.run k = true → s.run k = true
  only : ∀ k, s.run k = true → s'.run k = true ∨ P k

theorem unset_spec {r : Nat → Nat} (hr : ∀ m, ∀ c ∈ G.subs m, r c < r m) (hn : Function.Injective G.name)
    {s0 : St D} (hown : ∀ k, (s0.own k).isSome) {U : Nat → Prop} (hU : ∀ k, U k → ∀ c ∈ G.subs k, U c) :
    ∀ (f m : Nat) (s : St D), r m < f → Moved G s0 s → OffClosed G U s → U m → s.run m = true →
      ∃ s', unsetRunning G f m s = .ok s' ∧ UnsetSpec G s0 U (Reach G m) s s' ∧ s'.run m = false := by
  have hreach : ∀ a b, Reach G a b → r b ≤ r a := by
    intro a b hab
    induction hab with
    | refl => exact Nat.le_refl _
    | step h _ ih => have := hr _ _ h; omega
  intro f
  induction f with
  | zero => intro m s h; omega
  | succ f ih =>
    intro m s hf hm hc hum hrun
    have loop : ∀ (l : List Nat) (s : St D), (∀ c ∈ l, c ∈ G.subs m) → Moved G s0 s → OffClosed G U s →
        ∃ s', forEach (fun c s => if s.run c then unsetRunning G f c s else .ok s) l s = .ok s' ∧
          UnsetSpec G s0 U (fun k => ∃ c ∈ l, Reach G c k) s s' ∧ (∀ c ∈ l, s'.run c = false) := by
      intro l
      induction l with
      | nil => intro s _ h1 h2; exact ⟨s, rfl, ⟨h1, h2, fun _ h => h, fun _ h => Or.inl h⟩, by simp⟩
      | cons c l ihl =>
        intro s hl h1 h2
        have hcm := hl c List.mem_cons_self
        have hstep : ∃ s1, (if s.run c then unsetRunning G f c s else Except.ok s) = .ok s1 ∧
            UnsetSpec G s0 U (Reach G c) s s1 ∧ s1.run c = false := by
          by_cases hrc : s.run c = true
          · rw [if_pos hrc]
            exact ih c s (by have := hr m c hcm; omega) h1 h2 (hU m hum c hcm) hrc
          · exact ⟨s, by rw [if_neg hrc], ⟨h1, h2, fun _ h => h, fun _ h => Or.inl h⟩, by simpa using hrc⟩
        obtain ⟨s1, e1, p1, q1⟩ := hstep
        obtain ⟨s2, e2, p2, q2⟩ := ihl s1 (fun x hx => hl x (List.mem_cons_of_mem _ hx)) p1.moved p1.closed
        refine ⟨s2, by simp only [forEach, e1, andThen]; exact e2, ⟨p2.moved, p2.closed, fun k h => p1.mono k (p2.mono k h), ?_⟩, ?_⟩
        · intro k hk
          rcases p1.only k hk with h | h
          · rcases p2.only k h with h | ⟨x, hx, h⟩
            · exact Or.inl h
            · exact Or.inr ⟨x, List.mem_cons_of_mem _ hx, h⟩
          · exact Or.inr ⟨c, List.mem_cons_self, h⟩
        · intro x hx
          rcases List.mem_cons.1 hx with rfl | hx
          · by_contra hne
            have := p2.mono x (by simpa using hne)
            rw [q1] at this; cases this
          · exact q2 x hx
    obtain ⟨s1, e1, p1, q1⟩ := loop (G.subs m) s (fun _ h => h) hm hc
    have hm1 : s1.run m = true := by
      rcases p1.only m hrun with h | ⟨c, hcm, h⟩
      · exact h
      · have h1 := hreach c m h
        have h2 := hr m c hcm
        omega
    obtain ⟨ho, hs⟩ := p1.moved.on m hm1
    obtain ⟨d, hd⟩ := Option.isSome_iff_exists.1 (hown m)
    refine ⟨_, by simp only [unsetRunning, hrun, e1, andThen, moveIn, hs, hd]; rfl, ?_, by simp⟩
    refine ⟨⟨?_, ?_, p1.moved.init, p1.moved.mem, p1.moved.loads, p1.moved.finals⟩, ?_, ?_, ?_⟩
    · intro k hk
      by_cases hkm : k = m
      · subst hkm; simp at hk
      · have hk' : s1.run k = true := by simpa [upd_ne _ _ hkm] using hk
        simp only [upd_ne _ _ hkm, upd_ne _ _ (fun h => hkm (hn h))]
        exact p1.moved.on k hk'
    · intro k hk
      by_cases hkm : k = m
      · subst hkm; simp [hd]
      · have hk' : s1.run k = false := by simpa [upd_ne _ _ hkm] using hk
        simp only [upd_ne _ _ hkm]
        exact p1.moved.off k hk'
    · intro k huk hk c hcs
      by_cases hcm : c = m
      · subst hcm; simp
      · simp only [upd_ne _ _ hcm]
        by_cases hkm : k = m
        · subst hkm; exact q1 c hcs
        · exact p1.closed k huk (by simpa [upd_ne _ _ hkm] using hk) c hcs
    · intro k hk
      by_cases hkm : k = m
      · subst hkm; exact hrun
      · exact p1.mono k (by simpa [upd_ne _ _ hkm] using hk)
    · intro k hk
      by_cases hkm : k = m
      · subst hkm; exact Or.inr (Reach.refl _)
      · simp only [upd_ne _ _ hkm]
        rcases p1.only k hk with h | ⟨c, hc', h⟩
        · exact Or.inl h
        · exact Or.inr (Reach.step hc' h)

theorem setAll_spec {r : Nat → Nat} {lim : Nat} (hlim : ∀ m, r m < lim) (hr : ∀ m, ∀ c ∈ G.subs m, r c < r m)
    (hn : Function.Injective G.name) {s0 : St D} (hown : ∀ k, (s0.own k).isSome) :
    ∀ (l : List Nat) (s : St D), Moved G s0 s → RunClosed G s → (∀ m ∈ l, s.run m = false) →
      l.Pairwise (fun a b => ¬ Reach G a b) →
      ∃ s', setAll G lim l s = .ok s' ∧ SetSpec G s0 (fun k => ∃ m ∈ l, Reach G m k) s s' ∧ ∀ m ∈ l, s'.run m = true := by
  intro l
  induction l with
  | nil => intro s h1 h2 _ _; exact ⟨s, rfl, ⟨h1, h2, fun _ h => h, fun _ h => Or.inl h⟩, by simp⟩
  | cons m l ih =>
    intro s h1 h2 h3 hp
    obtain ⟨s1, e1, p1, q1⟩ := set_spec hr hn hown lim m s (hlim m) h1 h2 (h3 m List.mem_cons_self)
    obtain ⟨hp1, hp2⟩ := List.pairwise_cons.1 hp
    obtain ⟨s2, e2, p2, q2⟩ := ih s1 p1.moved p1.closed (by
      intro x hx
      by_contra hne
      rcases p1.only x (by simpa using hne) with h | h
      · rw [h3 x (List.mem_cons_of_mem _ hx)] at h; cases h
      · exact hp1 x hx h) hp2
    refine ⟨s2, by unfold setAll at e2 ⊢; simp only [forEach, e1, andThen]; exact e2,
      ⟨p2.moved, p2.closed, fun k h => p2.mono k (p1.mono k h), ?_⟩, ?_⟩
    · intro k hk
      rcases p2.only k hk with h | ⟨x, hx, h⟩
      · rcases p1.only k h with h | h
        · exact Or.inl h
        · exact Or.inr ⟨m, List.mem_cons_self, h⟩
      · exact Or.inr ⟨x, List.mem_cons_of_mem _ hx, h⟩
    · intro x hx
      rcases List.mem_cons.1 hx with rfl | hx
      · exact p2.mono _ q1
      · exact q2 x hx

theorem unsetAll_spec {r : Nat → Nat} {lim : Nat} (hlim : ∀ m, r m < lim) (hr : ∀ m, ∀ c ∈ G.subs m, r c < r m)
    (hn : Function.Injective G.name) {s0 : St D} (hown : ∀ k, (s0.own k).isSome)
    {U : Nat → Prop} (hU : ∀ k, U k → ∀ c ∈ G.subs k, U c) :
    ∀ (l : List Nat) (s : St D), Moved G s0 s → OffClosed G U s → (∀ m ∈ l, U m) → (∀ m ∈ l, s.run m = true) →
      l.Pairwise (fun a b => ¬ Reach G a b) →
      ∃ s', unsetAll G lim l s = .ok s' ∧ UnsetSpec G s0 U (fun k => ∃ m ∈ l, Reach G m k) s s' ∧
        ∀ m ∈ l, s'.run m = false := by
  intro l
  induction l with
  | nil => intro s h1 h2 _ _ _; exact ⟨s, rfl, ⟨h1, h2, fun _ h => h, fun _ h => Or.inl h⟩, by simp⟩
  | cons m l ih =>
    intro s h1 h2 hu h3 hp
    obtain ⟨s1, e1, p1, q1⟩ := unset_spec hr hn hown hU lim m s (hlim m) h1 h2 (hu m List.mem_cons_self)
      (h3 m List.mem_cons_self)
    obtain ⟨hp1, hp2⟩ := List.pairwise_cons.1 hp
    obtain ⟨s2, e2, p2, q2⟩ := ih s1 p1.moved p1.closed (fun x hx => hu x (List.mem_cons_of_mem _ hx)) (by
      intro x hx
      rcases p1.only x (h3 x (List.mem_cons_of_mem _ hx)) with h | h
      · exact h
      · exact absurd h (hp1 x hx)) hp2
    refine ⟨s2, by unfold unsetAll at e2 ⊢; simp only [forEach, e1, andThen]; exact e2,
      ⟨p2.moved, p2.closed, fun k h => p1.mono k (p2.mono k h), ?_⟩, ?_⟩
    · intro k hk
      rcases p1.only k hk with h | h
      · rcases p2.only k h with h | ⟨x, hx, h⟩
        · exact Or.inl h
        · exact Or.inr ⟨x, List.mem_cons_of_mem _ hx, h⟩
      · exact Or.inr ⟨m, List.mem_cons_self, h⟩
    · intro x hx
      rcases List.mem_cons.1 hx with rfl | hx
      · by_contra hne
        have := p2.mono x (by simpa using hne)
        rw [q1] at this; cases this
      · exact q2 x hx

/-! ### initialization -/

/-- stored data and the initialized flag agree -/
def Cons (G : Graph) (s : St D) : Prop := ∀ k, G.key k ∈ s.mem ↔ s.init k = true

structure InitSpec (G : Graph) (P : Nat → Prop) (s s' : St D) (new : List Nat) : Prop where
  init : ∀ k, s'.init k = true ↔ s.init k = true ∨ k ∈ new
  loads : s'.loads = s.loads ++ new
  run : s'.run = s.run
  own : s'.own = s.own
  finals : s'.finals = s.finals
  cons : Cons G s'
  nodup : new.Nodup
  fresh : ∀ k ∈ new, s.init k = false
  order : ∀ a k b, new = a ++ k :: b → ∀ c ∈ G.subs k, s.init c = true ∨ c ∈ a
  only : ∀ k ∈ new, P k

theorem InitSpec.nil {P : Nat → Prop} {s : St D} (h : Cons G s) : InitSpec G P s s [] :=
  ⟨by simp, by simp, rfl, rfl, rfl, h, by simp, by simp, by simp, by simp⟩

theorem InitSpec.trans {P Q : Nat → Prop} {s s1 s2 : St D} {n1 n2 : List Nat} (h1 : InitSpec G P s s1 n1)
    (h2 : InitSpec G Q s1 s2 n2) : InitSpec G (fun k => P k ∨ Q k) s s2 (n1 ++ n2) := by
  refine ⟨?_, ?_, h2.run.trans h1.run, h2.own.trans h1.own, h2.finals.trans h1.finals, h2.cons, ?_, ?_, ?_, ?_⟩
  · intro k; rw [h2.init, h1.init, List.mem_append, or_assoc]
  · rw [h2.loads, h1.loads, List.append_assoc]
  · rw [List.nodup_append]
    refine ⟨h1.nodup, h2.nodup, ?_⟩
    intro a ha b hb hab
    subst hab
    have := h2.fresh a hb
    rw [(h1.init a).2 (Or.inr ha)] at this; cases this
  · intro k hk
    rcases List.mem_append.1 hk with h | h
    · exact h1.fresh k h
    · have := h2.fresh k h
      by_contra hx
      rw [(h1.init k).2 (Or.inl (by simpa using hx))] at this; cases this
  · intro a k b hab c hc
    rcases List.append_eq_append_iff.1 hab with ⟨t, rfl, ht⟩ | ⟨t, ht, hb⟩
    · rcases h2.order t k b ht c hc with h | h
      · rcases (h1.init c).1 h with h | h
        · exact Or.inl h
        · exact Or.inr (List.mem_append.2 (Or.inl h))
      · exact Or.inr (List.mem_append.2 (Or.inr h))
    · cases t with
      | nil =>
        have e : n2 = k :: b := by simpa using hb.symm
        rcases h2.order [] k b (by simpa using e) c hc with h | h
        · rcases (h1.init c).1 h with h | h
          · exact Or.inl h
          · exact Or.inr (by simpa using (show c ∈ a by simpa using (by rw [ht] at h; simpa using h)))
        · cases h
      | cons x t =>
        simp only [List.cons_append, List.cons.injEq] at hb
        obtain ⟨rfl, _⟩ := hb
        exact h1.order a k t ht c hc
  · intro k hk
    rcases List.mem_append.1 hk with h | h
    · exact Or.inl (h1.only k h)
    · exact Or.inr (h2.only k h)

theorem InitSpec.mono {P Q : Nat → Prop} {s s' : St D} {n : List Nat} (h : InitSpec G P s s' n) (hpq : ∀ k, P k → Q k) :
    InitSpec G Q s s' n := { h with only := fun k hk => hpq k (h.only k hk) }

theorem reach_rank {r : Nat → Nat} (hr : ∀ m, ∀ c ∈ G.subs m, r c < r m) : ∀ a b, Reach G a b → r b ≤ r a := by
  intro a b hab
  induction hab with
  | refl => exact Nat.le_refl _
  | step h _ ih => have := hr _ _ h; omega

theorem init_spec {r : Nat → Nat} (hr : ∀ m, ∀ c ∈ G.subs m, r c < r m) (hk : Function.Injective G.key) (a : Nat) :
    ∀ (f m : Nat) (s : St D), r m < f → (∀ k, s.run k = false) → Cons G s →
      ∃ s' new, initModel G a f m s = .ok s' ∧ InitSpec G (Reach G m) s s' new ∧ s'.init m = true := by
  intro f
  induction f with
  | zero => intro m s h; omega
  | succ f ih =>
    intro m s hf hnr hc
    by_cases hi : s.init m = true
    · exact ⟨s, [], by simp [initModel, hnr, hi], InitSpec.nil hc, hi⟩
    have hi' : s.init m = false := by simpa using hi
    have loop : ∀ (l : List Nat) (s : St D), (∀ c ∈ l, c ∈ G.subs m) → (∀ k, s.run k = false) → Cons G s →
        ∃ s' new, forEach (fun c s => if s.init c then .ok s else initModel G a f c s) l s = .ok s' ∧
          InitSpec G (fun k => ∃ c ∈ l, Reach G c k) s s' new ∧ (∀ c ∈ l, s'.init c = true) := by
      intro l
      induction l with
      | nil => intro s _ _ h; exact ⟨s, [], rfl, InitSpec.nil h, by simp⟩
      | cons c l ihl =>
        intro s hl h1 h2
        have hcm := hl c List.mem_cons_self
        have hstep : ∃ s1 n1, (if s.init c then Except.ok s else initModel G a f c s) = .ok s1 ∧
            InitSpec G (Reach G c) s s1 n1 ∧ s1.init c = true := by
          by_cases hrc : s.init c = true
          · exact ⟨s, [], by rw [if_pos hrc], InitSpec.nil h2, hrc⟩
          · rw [if_neg hrc]
            exact ih c s (by have := hr m c hcm; omega) h1 h2
        obtain ⟨s1, n1, e1, p1, q1⟩ := hstep
        obtain ⟨s2, n2, e2, p2, q2⟩ := ihl s1 (fun x hx => hl x (List.mem_cons_of_mem _ hx)) (by rw [p1.run]; exact h1) p1.cons
        refine ⟨s2, n1 ++ n2, by simp only [forEach, e1, andThen]; exact e2, (p1.trans p2).mono ?_, ?_⟩
        · rintro k (h | ⟨x, hx, h⟩)
          · exact ⟨c, List.mem_cons_self, h⟩
          · exact ⟨x, List.mem_cons_of_mem _ hx, h⟩
        · intro x hx
          rcases List.mem_cons.1 hx with rfl | hx
          · exact (p2.init x).2 (Or.inl q1)
          · exact q2 x hx
    obtain ⟨s1, n1, e1, p1, q1⟩ := loop (G.subs m) s (fun _ h => h) hnr hc
    have hm1 : s1.init m = false := by
      by_contra hx
      rcases (p1.init m).1 (by simpa using hx) with h | h
      · exact hi h
      · obtain ⟨c, hcm, h⟩ := p1.only m h
        have h1 := reach_rank hr c m h
        have h2 := hr m c hcm
        omega
    have hra : s1.run a = false := by rw [p1.run]; exact hnr a
    have hmem : G.key m ∉ s1.mem := by rw [p1.cons m, hm1]; decide
    let s2 : St D := { s1 with loads := s1.loads ++ [m], mem := G.key m :: s1.mem, init := upd s1.init m true }
    have hlast : InitSpec G (Reach G m) s1 s2 [m] := by
      refine ⟨?_, rfl, rfl, rfl, rfl, ?_, by simp, by simp [hm1], ?_, by simp [Reach.refl]⟩
      · intro k
        by_cases hkm : k = m
        · subst hkm; simp [s2]
        · simp [s2, upd_ne _ _ hkm, hkm]
      · intro k
        by_cases hkm : k = m
        · subst hkm; simp [s2]
        · have : G.key k ≠ G.key m := fun h => hkm (hk h)
          simp [s2, upd_ne _ _ hkm, this, p1.cons k]
      · intro x k b hx c hcs
        have : x = [] ∧ k = m := by
          cases x with
          | nil => simp at hx; exact ⟨rfl, hx.1.symm⟩
          | cons y ys => simp at hx
        obtain ⟨rfl, rfl⟩ := this
        exact Or.inl (q1 c hcs)
    refine ⟨s2, n1 ++ [m], ?_, (p1.trans hlast).mono ?_, by simp [s2]⟩
    · simp only [initModel, hnr, hi', e1, andThen, loadData, hm1, storeModelData, hra, hmem]
      simp [s2, hra, hmem]
    · rintro k (⟨c, hc', h⟩ | h)
      · exact Reach.step hc' h
      · exact h

structure FinSpec (G : Graph) (P : Nat → Prop) (s s' : St D) (gone : List Nat) : Prop where
  init : ∀ k, s'.init k = true ↔ s.init k = true ∧ k ∉ gone
  finals : s'.finals = s.finals ++ gone
  run : s'.run = s.run
  own : s'.own = s.own
  loads : s'.loads = s.loads
  cons : Cons G s'
  nodup : gone.Nodup
  was : ∀ k ∈ gone, s.init k = true
  only : ∀ k ∈ gone, P k

theorem FinSpec.nil {P : Nat → Prop} {s : St D} (h : Cons G s) : FinSpec G P s s [] :=
  ⟨by simp, by simp, rfl, rfl, rfl, h, by simp, by simp, by simp⟩

theorem FinSpec.mono {P Q : Nat → Prop} {s s' : St D} {n : List Nat} (h : FinSpec G P s s' n) (hpq : ∀ k, P k → Q k) :
    FinSpec G Q s s' n := { h with only := fun k hk => hpq k (h.only k hk) }

theorem FinSpec.trans {P Q : Nat → Prop} {s s1 s2 : St D} {n1 n2 : List Nat} (h1 : FinSpec G P s s1 n1)
    (h2 : FinSpec G Q s1 s2 n2) : FinSpec G (fun k => P k ∨ Q k) s s2 (n1 ++ n2) := by
  refine ⟨?_, ?_, h2.run.trans h1.run, h2.own.trans h1.own, h2.loads.trans h1.loads, h2.cons, ?_, ?_, ?_⟩
  · intro k; rw [h2.init, h1.init, List.mem_append, not_or, and_assoc]
  · rw [h2.finals, h1.finals, List.append_assoc]
  · rw [List.nodup_append]
    refine ⟨h1.nodup, h2.nodup, ?_⟩
    intro a ha b hb hab
    subst hab
    exact ((h1.init a).1 (h2.was a hb)).2 ha
  · intro k hk
    rcases List.mem_append.1 hk with h | h
    · exact h1.was k h
    · exact ((h1.init k).1 (h2.was k h)).1
  · intro k hk
    rcases List.mem_append.1 hk with h | h
    · exact Or.inl (h1.only k h)
    · exact Or.inr (h2.only k h)

theorem fin_spec {r : Nat → Nat} (hr : ∀ m, ∀ c ∈ G.subs m, r c < r m) (hk : Function.Injective G.key) (a : Nat) :
    ∀ (f m : Nat) (s : St D), r m < f → (∀ k, s.run k = false) → Cons G s →
      ∃ s' gone, finModel G a f m s = .ok s' ∧ FinSpec G (Reach G m) s s' gone ∧ s'.init m = false ∧
        (s.init m = true → ∀ c ∈ G.subs m, s'.init c = false) := by
  intro f
  induction f with
  | zero => intro m s h; omega
  | succ f ih =>
    intro m s hf hnr hc
    by_cases hi : s.init m = true
    swap
    · exact ⟨s, [], by simp [finModel, hnr, hi], FinSpec.nil hc, by simpa using hi, fun h => absurd h hi⟩
    have loop : ∀ (l : List Nat) (s : St D), (∀ c ∈ l, c ∈ G.subs m) → (∀ k, s.run k = false) → Cons G s →
        ∃ s' gone, forEach (finModel G a f) l s = .ok s' ∧
          FinSpec G (fun k => ∃ c ∈ l, Reach G c k) s s' gone ∧ (∀ c ∈ l, s'.init c = false) := by
      intro l
      induction l with
      | nil => intro s _ _ h; exact ⟨s, [], rfl, FinSpec.nil h, by simp⟩
      | cons c l ihl =>
        intro s hl h1 h2
        have hcm := hl c List.mem_cons_self
        obtain ⟨s1, n1, e1, p1, q1, _⟩ := ih c s (by have := hr m c hcm; omega) h1 h2
        obtain ⟨s2, n2, e2, p2, q2⟩ := ihl s1 (fun x hx => hl x (List.mem_cons_of_mem _ hx)) (by rw [p1.run]; exact h1) p1.cons
        refine ⟨s2, n1 ++ n2, by simp only [forEach, e1, andThen]; exact e2, (p1.trans p2).mono ?_, ?_⟩
        · rintro k (h | ⟨x, hx, h⟩)
          · exact ⟨c, List.mem_cons_self, h⟩
          · exact ⟨x, List.mem_cons_of_mem _ hx, h⟩
        · intro x hx
          rcases List.mem_cons.1 hx with rfl | hx
          · by_contra hne
            have := ((p2.init x).1 (by simpa using hne)).1
            rw [q1] at this; cases this
          · exact q2 x hx
    obtain ⟨s1, n1, e1, p1, q1⟩ := loop (G.subs m) s (fun _ h => h) hnr hc
    have hm1 : s1.init m = true := by
      refine (p1.init m).2 ⟨hi, fun h => ?_⟩
      obtain ⟨c, hcm, h⟩ := p1.only m h
      have h1 := reach_rank hr c m h
      have h2 := hr m c hcm
      omega
    have hra : s1.run a = false := by rw [p1.run]; exact hnr a
    have hmem : G.key m ∈ s1.mem := by rw [p1.cons m, hm1]
    let s2 : St D := { s1 with mem := s1.mem.filter (fun k => k != G.key m), init := upd s1.init m false, finals := s1.finals ++ [m] }
    have hlast : FinSpec G (Reach G m) s1 s2 [m] := by
      refine ⟨?_, rfl, rfl, rfl, rfl, ?_, by simp, by simp [hm1], by simp [Reach.refl]⟩
      · intro k
        by_cases hkm : k = m
        · subst hkm; simp [s2]
        · simp [s2, upd_ne _ _ hkm, hkm]
      · intro k
        by_cases hkm : k = m
        · subst hkm; simp [s2]
        · have : G.key k ≠ G.key m := fun h => hkm (hk h)
          simp [s2, upd_ne _ _ hkm, this, p1.cons k]
    refine ⟨s2, n1 ++ [m], ?_, (p1.trans hlast).mono ?_, by simp [s2], ?_⟩
    · simp [finModel, hnr, hi, e1, andThen, delModelData, hra, hmem, s2]
    · rintro k (⟨c, hc', h⟩ | h)
      · exact Reach.step hc' h
      · exact h
    · intro _ c hcs
      by_cases hkm : c = m
      · subst hkm; simp [s2]
      · simp only [s2, upd_ne _ _ hkm]; exact q1 c hcs

end Foxes.Lifecycle
