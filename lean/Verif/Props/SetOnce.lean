import Mathlib.Data.List.Basic
import Mathlib.Tactic.Common
import Verif.Model.SetOnce
/-
C89: values set "only once".
-/
namespace Foxes.Props.SetOnce
open Foxes.SetOnce

variable {K : Type}

/-! ## Chunks do not disturb each other -/

/-- the evaluations of one chunk, in their order -/
def ofChunk (c : ℕ) (es : List (Event K)) : List (Event K) := es.filter fun e => e.i0 == c

/-- one chunk alone: its farm data, and if the model has been run for it -/
def runChunk (once : Bool) (data : Arr K) : List (Event K) → Arr K × Bool → Arr K × Bool
  | [], p => p
  | e :: es, p => runChunk once data es (if !once || !p.2 then (write e.sel data (e.change p.1), true) else (e.change p.1, p.2))

/-- **C89 (schedules).** However the evaluations of several chunks interleave: what happens to one chunk is determined by its own evaluations, in their order. -/
theorem C89_schedule (once : Bool) (data : ℕ → Arr K) (es : List (Event K)) (st : St K) (c : ℕ) :
    ((run once data es st).fd c, (run once data es st).done c) = runChunk once (data c) (ofChunk c es) (st.fd c, st.done c) := by
  induction es generalizing st with
  | nil => rfl
  | cons e es ih =>
    have ih := ih (step once data st e)
    have hr : run once data (e :: es) st = run once data es (step once data st e) := rfl
    rw [hr, ih]
    by_cases hc : e.i0 = c
    · subst hc
      have : ofChunk e.i0 (e :: es) = e :: ofChunk e.i0 es := by simp [ofChunk]
      rw [this, runChunk]
      congr 1
      unfold step
      by_cases hh : (!once || !st.done e.i0) = true
      · simp only [hh, if_true]
      · simp only [hh, Bool.false_eq_true, if_false]
        simp
    · have : ofChunk c (e :: es) = ofChunk c es := by simp [ofChunk, hc]
      rw [this]
      congr 1
      have hc' : ¬ c = e.i0 := fun h => hc h.symm
      unfold step
      by_cases hh : (!once || !st.done e.i0) = true
      · simp only [hh, if_true]; simp [hc']
      · simp only [hh, Bool.false_eq_true, if_false]; simp [hc']

/-- **C89 (schedules).** Two schedules that keep the order within each chunk give the same results. -/
theorem C89_any_schedule (once : Bool) (data : ℕ → Arr K) (es es' : List (Event K)) (st : St K)
    (h : ∀ c, ofChunk c es = ofChunk c es') : run once data es st = run once data es' st := by
  have h1 : ∀ c, (run once data es st).fd c = (run once data es' st).fd c ∧ (run once data es st).done c = (run once data es' st).done c := by
    intro c
    have a := C89_schedule once data es st c
    have b := C89_schedule once data es' st c
    rw [h c] at a
    exact Prod.ext_iff.1 (a.trans b.symm)
  have : ∀ s s' : St K, (∀ c, s.fd c = s'.fd c ∧ s.done c = s'.done c) → s = s' := by
    rintro ⟨f, d⟩ ⟨f', d'⟩ hh
    have e1 : f = f' := funext fun c => (hh c).1
    have e2 : d = d' := funext fun c => (hh c).2
    rw [e1, e2]
  exact this _ _ h1

/-! ## What a calculation gives -/

/-- what the others do after this model has been run for the first time -/
def others (es : List (Event K)) (a : Arr K) : Arr K := es.foldl (fun a e => e.change a) a

theorem runChunk_done (data : Arr K) (es : List (Event K)) (a : Arr K) : runChunk true data es (a, true) = (others es a, true) := by
  induction es generalizing a with
  | nil => rfl
  | cons e es ih => simp only [runChunk, Bool.not_true, Bool.or_self, Bool.false_eq_true, if_false]; rw [ih]; rfl

/-- **C89 (once).** A model that has not been run for a chunk writes its data when it is first evaluated, and never again: everything after it is up to the others. -/
theorem C89_once_first (data : ℕ → Arr K) (es rest : List (Event K)) (e : Event K) (st : St K) (c : ℕ) (hd : st.done c = false) (he : ofChunk c es = e :: rest) :
    (run true data es st).fd c = others rest (write e.sel (data c) (e.change (st.fd c))) ∧ (run true data es st).done c = true := by
  have h := C89_schedule true data es st c
  rw [he, hd] at h
  simp only [runChunk, Bool.not_true, Bool.not_false, Bool.or_true, if_true] at h
  rw [runChunk_done] at h
  exact Prod.ext_iff.1 h

/-- **C89 (once).** A model that has been run for a chunk with this first state does nothing there. -/
theorem C89_once_done (data : ℕ → Arr K) (es : List (Event K)) (st : St K) (c : ℕ) (hd : st.done c = true) :
    (run true data es st).fd c = others (ofChunk c es) (st.fd c) ∧ (run true data es st).done c = true := by
  have h := C89_schedule true data es st c
  rw [hd, runChunk_done] at h
  exact Prod.ext_iff.1 h

theorem runChunk_always (data : Arr K) (es : List (Event K)) (p : Arr K × Bool) :
    (runChunk false data es p).1 = es.foldl (fun a e => write e.sel data (e.change a)) p.1 := by
  induction es generalizing p with
  | nil => rfl
  | cons e es ih => simp only [runChunk, Bool.not_false, Bool.true_or, if_true]; rw [ih]; rfl

/-- **C89 (not once).** Without the flag the model writes its data at every evaluation, whatever was done before. -/
theorem C89_always (data : ℕ → Arr K) (es : List (Event K)) (st : St K) (c : ℕ) :
    (run false data es st).fd c = (ofChunk c es).foldl (fun a e => write e.sel (data c) (e.change a)) (st.fd c) := by
  rw [← runChunk_always (data c) (ofChunk c es) (st.fd c, st.done c), ← C89_schedule]

/-- **C89 (not once).** After an evaluation for all turbines, whatever happened in any earlier calculation, a given entry has the user's value. -/
theorem C89_always_last (data : ℕ → Arr K) (es pre : List (Event K)) (e : Event K) (st : St K) (c : ℕ) (he : ofChunk c es = pre ++ [e])
    (s t : ℕ) (hs : e.sel s t = true) (hv : (data c s t).isSome) : (run false data es st).fd c s t = data c s t := by
  rw [C89_always, he, List.foldl_append]
  simp [write, hs, hv]

/-! ## Sessions -/

/-- A calculation in which no other model touches the variable: it starts with NaN, the first evaluation of each chunk is for all selected turbines `sel`, the others are for some of them. -/
structure Plain (sel : ℕ → ℕ → ℕ → Bool) (cal : Calc K) : Prop where
  start : ∀ c s t, cal.start c s t = none
  change : ∀ e ∈ cal.events, ∀ a, e.change a = a
  first : ∀ c e rest, ofChunk c cal.events = e :: rest → e.sel = sel c

/-- the first states of the chunks of a calculation -/
def starts (cal : Calc K) : List ℕ := cal.events.map (·.i0)

theorem others_id (es : List (Event K)) (h : ∀ e ∈ es, ∀ a, e.change a = a) (a : Arr K) : others es a = a := by
  induction es generalizing a with
  | nil => rfl
  | cons e es ih =>
    have h1 := h e (by simp) a
    simp only [others, List.foldl_cons] at *
    rw [h1]; exact ih (fun e he => h e (by simp [he])) a

theorem ofChunk_nil_iff (c : ℕ) (cal : Calc K) : ofChunk c cal.events = [] ↔ c ∉ starts cal := by
  simp only [ofChunk, starts, List.filter_eq_nil_iff, List.mem_map, not_exists, not_and, beq_iff_eq]

theorem mem_ofChunk {c : ℕ} {es : List (Event K)} {e : Event K} (h : e ∈ ofChunk c es) : e ∈ es := (List.mem_filter.1 h).1

/-- the values of one calculation: the user's value where given and selected, NaN elsewhere -/
def wanted (data : ℕ → Arr K) (sel : ℕ → ℕ → ℕ → Bool) (c : ℕ) : Arr K := fun s t => if sel c s t && (data c s t).isSome then data c s t else none

theorem plain_fresh (data : ℕ → Arr K) (sel : ℕ → ℕ → ℕ → Bool) (cal : Calc K) (hp : Plain sel cal) (done : ℕ → Bool) (c : ℕ) (hc : c ∈ starts cal)
    (hd : done c = false) : (run true data cal.events { fd := cal.start, done := done }).fd c = wanted data sel c := by
  cases he : ofChunk c cal.events with
  | nil => exact absurd hc ((ofChunk_nil_iff c cal).1 he)
  | cons e rest =>
    have hm : e ∈ cal.events := mem_ofChunk (c := c) (by rw [he]; simp)
    rw [(C89_once_first data cal.events rest e _ c hd he).1, others_id rest (fun x hx => hp.change x (mem_ofChunk (c := c) (by rw [he]; simp [hx]))), hp.change e hm,
      hp.first c e rest he]
    funext s t
    simp only [write, wanted, hp.start]

theorem plain_done (data : ℕ → Arr K) (sel : ℕ → ℕ → ℕ → Bool) (cal : Calc K) (hp : Plain sel cal) (done : ℕ → Bool) (c : ℕ) (hd : done c = true) (s t : ℕ) :
    (run true data cal.events { fd := cal.start, done := done }).fd c s t = none := by
  rw [(C89_once_done data cal.events _ c hd).1, others_id _ (fun x hx => hp.change x (mem_ofChunk hx))]
  exact hp.start c s t

theorem run_done (data : ℕ → Arr K) (cal : Calc K) (done : ℕ → Bool) (c : ℕ) :
    (run true data cal.events { fd := cal.start, done := done }).done c = true ↔ done c = true ∨ c ∈ starts cal := by
  by_cases hd : done c = true
  · have := (C89_once_done data cal.events { fd := cal.start, done := done } c hd).2
    simp [this, hd]
  · have hd' : done c = false := by simpa using hd
    cases he : ofChunk c cal.events with
    | nil =>
      have h := C89_schedule true data cal.events { fd := cal.start, done := done } c
      rw [he] at h
      have h2 := (Prod.ext_iff.1 h).2
      simp only [runChunk] at h2
      rw [h2, hd']
      have := (ofChunk_nil_iff c cal).1 he
      simp [this]
    | cons e rest =>
      have := (C89_once_first data cal.events rest e { fd := cal.start, done := done } c hd' he).2
      have hc : c ∈ starts cal := by
        by_contra hn
        rw [(ofChunk_nil_iff c cal).2 hn] at he
        cases he
      simp [this, hc]

theorem session_general (data : ℕ → Arr K) (sel : ℕ → ℕ → ℕ → Bool) (cs : List (Calc K)) (hp : ∀ cal ∈ cs, Plain sel cal) (hf : ∀ cal ∈ cs, cal.finalize = false)
    (done : ℕ → Bool) (k : ℕ) (cal : Calc K) (hk : cs[k]? = some cal) (res : ℕ → Arr K)
    (hr : (session true true data done cs)[k]? = some res) (c : ℕ) (hc : c ∈ starts cal) :
    ((done c = true ∨ ∃ j < k, ∃ b, cs[j]? = some b ∧ c ∈ starts b) → ∀ s t, res c s t = none) ∧
    (¬ (done c = true ∨ ∃ j < k, ∃ b, cs[j]? = some b ∧ c ∈ starts b) → res c = wanted data sel c) := by
  induction cs generalizing done k with
  | nil => simp at hk
  | cons b cs ih =>
    cases k with
    | zero =>
      simp only [List.getElem?_cons_zero, Option.some.injEq] at hk
      subst hk
      simp only [session, calcStep, List.getElem?_cons_zero, Option.some.injEq] at hr
      subst hr
      constructor
      · rintro (h | ⟨j, hj, _⟩)
        · exact fun s t => plain_done data sel b (hp b (by simp)) done c h s t
        · omega
      · intro h
        rw [not_or] at h
        exact plain_fresh data sel b (hp b (by simp)) done c hc (by simpa using h.1)
    | succ k =>
      rw [List.getElem?_cons_succ] at hk
      have hfin := hf b (by simp)
      simp only [session, calcStep, hfin, Bool.false_eq_true, if_false, if_true, List.getElem?_cons_succ] at hr
      have := ih (fun x hx => hp x (by simp [hx])) (fun x hx => hf x (by simp [hx])) _ k hk hr
      rw [run_done] at this
      have e : (((done c = true ∨ c ∈ starts b) ∨ ∃ j < k, ∃ x, cs[j]? = some x ∧ c ∈ starts x)) ↔
          (done c = true ∨ ∃ j < k + 1, ∃ x, (b :: cs)[j]? = some x ∧ c ∈ starts x) := by
        constructor
        · rintro ((h | h) | ⟨j, hj, x, hx, hm⟩)
          · exact Or.inl h
          · exact Or.inr ⟨0, by omega, b, by simp, h⟩
          · exact Or.inr ⟨j + 1, by omega, x, by simpa using hx, hm⟩
        · rintro (h | ⟨j, hj, x, hx, hm⟩)
          · exact Or.inl (Or.inl h)
          · cases j with
            | zero => simp only [List.getElem?_cons_zero, Option.some.injEq] at hx; subst hx; exact Or.inl (Or.inr hm)
            | succ j => exact Or.inr ⟨j, by omega, x, by simpa using hx, hm⟩
      rwa [e] at this

/-- **C89 (sessions, finding).** An algorithm calculates again and again without finalisation, in the user's process. A chunk of a calculation has the user's
values exactly as long as no earlier calculation had a chunk with the same first state; otherwise all its values are NaN. -/
theorem C89_session (data : ℕ → Arr K) (sel : ℕ → ℕ → ℕ → Bool) (cs : List (Calc K)) (hp : ∀ cal ∈ cs, Plain sel cal) (hf : ∀ cal ∈ cs, cal.finalize = false)
    (k : ℕ) (cal : Calc K) (hk : cs[k]? = some cal) (res : ℕ → Arr K)
    (hr : (session true true data (fun _ => false) cs)[k]? = some res) (c : ℕ) (hc : c ∈ starts cal) :
    ((∃ j < k, ∃ b, cs[j]? = some b ∧ c ∈ starts b) → ∀ s t, res c s t = none) ∧
    ((¬ ∃ j < k, ∃ b, cs[j]? = some b ∧ c ∈ starts b) → res c = wanted data sel c) := by
  have := session_general data sel cs hp hf (fun _ => false) k cal hk res hr c hc
  simpa using this

/-- **C89 (sequential runs, finding).** In a sequential run each step is a calculation with one chunk, whose first state is number 0: only the first step has
the user's values, all later ones have NaN. -/
theorem C89_sequential (data : ℕ → Arr K) (sel : ℕ → ℕ → ℕ → Bool) (cs : List (Calc K)) (hp : ∀ cal ∈ cs, Plain sel cal) (hf : ∀ cal ∈ cs, cal.finalize = false)
    (h0 : ∀ cal ∈ cs, 0 ∈ starts cal) (k : ℕ) (res : ℕ → Arr K) (hr : (session true true data (fun _ => false) cs)[k]? = some res) :
    (k = 0 → res 0 = wanted data sel 0) ∧ (0 < k → ∀ s t, res 0 s t = none) := by
  have hlen : ∀ (done : ℕ → Bool) (l : List (Calc K)), (session true true data done l).length = l.length := by
    intro done l
    induction l generalizing done with
    | nil => rfl
    | cons b l ih => simp only [session, List.length_cons, ih]
  have hk : k < cs.length := by
    rw [← hlen (fun _ => false) cs]
    exact (List.getElem?_eq_some_iff.1 hr).1
  have hc : 0 ∈ starts cs[k] := h0 _ (List.getElem_mem hk)
  have := C89_session data sel cs hp hf k cs[k] (List.getElem?_eq_getElem hk) res hr 0 hc
  constructor
  · intro h; subst h
    exact this.2 (by rintro ⟨j, hj, _⟩; omega)
  · intro h
    refine this.1 ⟨0, h, cs[0], List.getElem?_eq_getElem (by omega), h0 _ (List.getElem_mem _)⟩

/-- **C89 (finalisation, processes, no flag).** The user's values are there in every calculation if each of them is finalised, or if the evaluations
happen in other processes; and without the flag if each chunk ends with an evaluation for all turbines. -/
theorem C89_session_right (shared once : Bool) (data : ℕ → Arr K) (sel : ℕ → ℕ → ℕ → Bool) (cs : List (Calc K)) (hp : ∀ cal ∈ cs, Plain sel cal)
    (h : (once = true ∧ ((∀ cal ∈ cs, cal.finalize = true) ∨ shared = false)) ∨
      (once = false ∧ ∀ cal ∈ cs, ∀ e ∈ cal.events, ∀ s t, e.sel s t = true → sel e.i0 s t = true))
    (k : ℕ) (cal : Calc K) (hk : cs[k]? = some cal) (res : ℕ → Arr K)
    (hr : (session shared once data (fun _ => false) cs)[k]? = some res) (c : ℕ) (hc : c ∈ starts cal) : res c = wanted data sel c := by
  rcases h with ⟨rfl, h⟩ | ⟨rfl, h⟩
  · have hstep : ∀ b ∈ cs, (calcStep shared true data (fun _ => false) b).2 = fun _ => false := by
      intro b hb
      rcases h with h | h
      · simp [calcStep, h b hb]
      · subst h; simp [calcStep]
    clear h
    induction cs generalizing k with
    | nil => simp at hk
    | cons b cs ih =>
      cases k with
      | zero =>
        simp only [List.getElem?_cons_zero, Option.some.injEq] at hk
        subst hk
        simp only [session, calcStep, List.getElem?_cons_zero, Option.some.injEq] at hr
        subst hr
        exact plain_fresh data sel b (hp b (by simp)) _ c hc rfl
      | succ k =>
        rw [List.getElem?_cons_succ] at hk
        simp only [session, List.getElem?_cons_succ] at hr
        rw [hstep b (by simp)] at hr
        exact ih (fun x hx => hp x (by simp [hx])) k hk hr (fun x hx => hstep x (by simp [hx]))
  · have key : ∀ (done : ℕ → Bool) (cs : List (Calc K)), (∀ cal ∈ cs, Plain sel cal) →
        (∀ cal ∈ cs, ∀ e ∈ cal.events, ∀ s t, e.sel s t = true → sel e.i0 s t = true) → ∀ (k : ℕ), cs[k]? = some cal →
        (session shared false data done cs)[k]? = some res → res c = wanted data sel c := by
      intro done cs
      induction cs generalizing done with
      | nil => intro _ _ k hk; simp at hk
      | cons b cs ih =>
        intro hp h k hk hr
        cases k with
        | succ k =>
          rw [List.getElem?_cons_succ] at hk
          simp only [session, List.getElem?_cons_succ] at hr
          exact ih _ (fun x hx => hp x (by simp [hx])) (fun x hx => h x (by simp [hx])) k hk hr
        | zero =>
          simp only [List.getElem?_cons_zero, Option.some.injEq] at hk
          subst hk
          simp only [session, calcStep, List.getElem?_cons_zero, Option.some.injEq] at hr
          subst hr
          have hpb := hp b (by simp)
          rw [C89_always]
          cases he : ofChunk c b.events with
          | nil => exact absurd hc ((ofChunk_nil_iff c b).1 he)
          | cons e rest =>
            have hm : ∀ x ∈ e :: rest, x ∈ b.events ∧ x.i0 = c := by
              intro x hx
              rw [← he] at hx
              have := List.mem_filter.1 hx
              exact ⟨this.1, by simpa using this.2⟩
            simp only [List.foldl_cons]
            rw [hpb.change e (hm e (by simp)).1, hpb.first c e rest he]
            have h0 : write (sel c) (data c) (b.start c) = wanted data sel c := by
              funext s t; simp only [write, wanted, hpb.start]
            simp only [h0]
            have hrest : ∀ x ∈ rest, write x.sel (data c) (x.change (wanted data sel c)) = wanted data sel c := by
              intro x hx
              obtain ⟨hx1, hx2⟩ := hm x (by simp [hx])
              rw [hpb.change x hx1]
              funext s t
              simp only [write, wanted]
              by_cases hs : x.sel s t = true
              · have := h b (by simp) x hx1 s t hs
                rw [hx2] at this
                simp [hs, this]
              · simp [hs]
            clear he hm
            induction rest with
            | nil => rfl
            | cons x rest ih2 =>
              simp only [List.foldl_cons]
              rw [hrest x (by simp)]
              exact ih2 (fun y hy => hrest y (by simp [hy]))
    exact key _ cs hp h k hk hr

/-! ## The iterative algorithm -/

/-- **C89 (engines, finding).** Iterations in which another model changes the variable before this model is evaluated, once per chunk. In the user's process
the data are written in the first iteration only and the changes of all later iterations remain; with processes the data are written in every iteration. -/
theorem C89_iterations_engines (data : ℕ → Arr K) (its : List (Event K)) (e : Event K) (fd : ℕ → Arr K) (c : ℕ)
    (hc : ∀ x ∈ e :: its, x.i0 = c) (hs : ∀ x ∈ e :: its, ∀ s t, x.sel s t = true) (hd : ∀ s t, (data c s t).isSome) :
    iterate true true data (fun _ => false) fd ((e :: its).map fun x => [x]) c = others its (data c) ∧
    iterate false true data (fun _ => false) fd ((e :: its).map fun x => [x]) c = data c := by
  have hw : ∀ x ∈ e :: its, ∀ a, write x.sel (data c) a = data c := by
    intro x hx a; funext s t; simp [write, hs x hx s t, hd s t]
  have hone : ∀ x ∈ e :: its, ofChunk c [x] = [x] := by intro x hx; simp [ofChunk, hc x hx]
  constructor
  · have hsh : ∀ (l : List (Event K)) (done : ℕ → Bool) (f : ℕ → Arr K), (∀ x ∈ l, x ∈ e :: its) → done c = true →
        iterate true true data done f (l.map fun x => [x]) c = others l (f c) := by
      intro l
      induction l with
      | nil => intro done f _ _; rfl
      | cons x l ih =>
        intro done f hl hdn
        have h1 := C89_once_done data [x] { fd := f, done := done } c hdn
        simp only [List.map_cons, iterate, calcStep, Bool.false_eq_true, if_false, if_true]
        rw [ih _ _ (fun y hy => hl y (by simp [hy])) h1.2, h1.1, hone x (hl x (by simp))]
        rfl
    have h1 := C89_once_first data [e] [] e { fd := fd, done := fun _ => false } c rfl (hone e (by simp))
    simp only [List.map_cons, iterate, calcStep, Bool.false_eq_true, if_false, if_true]
    rw [hsh its _ _ (fun y hy => by simp [hy]) h1.2, h1.1]
    simp only [others, List.foldl_nil]
    rw [hw e (by simp)]
  · have hpr : ∀ (l : List (Event K)) (x : Event K) (f : ℕ → Arr K), (∀ y ∈ x :: l, y ∈ e :: its) →
        iterate false true data (fun _ => false) f ((x :: l).map fun y => [y]) c = data c := by
      intro l
      induction l with
      | nil =>
        intro x f hl
        have h1 := C89_once_first data [x] [] x { fd := f, done := fun _ => false } c rfl (hone x (hl x (by simp)))
        simp only [List.map_cons, List.map_nil, iterate, calcStep]
        rw [h1.1]
        simp only [others, List.foldl_nil]
        rw [hw x (hl x (by simp))]
      | cons y l ih =>
        intro x f hl
        rw [List.map_cons, iterate]
        simp only [calcStep, Bool.false_eq_true, if_false]
        exact ih y _ (fun z hz => hl z (by simp only [List.mem_cons] at hz ⊢; tauto))
    exact hpr its e fd (fun y hy => hy)

/-! ## Concrete cases -/

/-- a calculation of one chunk with two states and two turbines, evaluated for all turbines, then for turbine 1 -/
def calcA : Calc ℕ := { start := fun _ _ _ => none, events := [⟨0, id, fun _ _ => true⟩, ⟨0, id, fun _ t => t == 1⟩], finalize := false }
/-- user data 7 -/
def dataA : ℕ → Arr ℕ := fun _ _ _ => some 7

theorem plainA : Plain (fun _ _ _ => true) calcA where
  start := fun _ _ _ => rfl
  change := by intro e he a; simp only [calcA, List.mem_cons, List.not_mem_nil, or_false] at he; rcases he with rfl | rfl <;> rfl
  first := by
    intro c e rest h
    by_cases hc : (0 : ℕ) = c
    · subst hc
      simp only [ofChunk, calcA] at h
      rw [List.filter_cons_of_pos (by rfl)] at h
      injection h with h _; subst h; rfl
    · simp [ofChunk, calcA, hc] at h

example : ((session true true dataA (fun _ => false) [calcA, calcA]).map fun r => (r 0 0 0, r 0 1 1)) = [(some 7, some 7), (none, none)] := by decide
example : ((session false true dataA (fun _ => false) [calcA, calcA]).map fun r => (r 0 0 0, r 0 1 1)) = [(some 7, some 7), (some 7, some 7)] := by decide
example : ((session true false dataA (fun _ => false) [calcA, calcA]).map fun r => (r 0 0 0, r 0 1 1)) = [(some 7, some 7), (some 7, some 7)] := by decide
example : ((session true true dataA (fun _ => false) [{ calcA with finalize := true }, calcA]).map fun r => (r 0 0 0, r 0 1 1)) = [(some 7, some 7), (some 7, some 7)] := by decide

end Foxes.Props.SetOnce
