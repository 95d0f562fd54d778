import Verif.Model.DataBox
import Mathlib.Data.List.Forall2
/-
C43: data containers.
-/
namespace Foxes.Props.DataBox
open Foxes.DataBox

variable {V : Type}

lemma lookup_insertKey {α : Type} (k k' : String) (x : α) (l : List (String × α)) :
    (insertKey k x l).lookup k' = if k' = k then some x else l.lookup k' := by
  induction l with
  | nil =>
    by_cases h : k' = k
    · simp [insertKey, h]
    · simp [insertKey, List.lookup, h, beq_eq_false_iff_ne.2 h]
  | cons p l ih =>
    obtain ⟨a, y⟩ := p
    simp only [insertKey]
    by_cases ha : a = k
    · subst ha
      by_cases h : k' = a
      · simp [h]
      · simp [List.lookup, h, beq_eq_false_iff_ne.2 h]
    · rw [if_neg ha]
      by_cases h : k' = a
      · subst h
        simp [ha]
      · simp only [List.lookup, beq_eq_false_iff_ne.2 h]
        exact ih

lemma insertKey_self {α : Type} (k : String) (x : α) (l : List (String × α)) (h : l.lookup k = some x) : insertKey k x l = l := by
  induction l with
  | nil => simp at h
  | cons p l ih =>
    obtain ⟨a, y⟩ := p
    simp only [insertKey]
    by_cases ha : a = k
    · subst ha
      simp at h
      simp [h]
    · rw [if_neg ha]
      have hne : k ≠ a := fun e => ha e.symm
      simp only [List.lookup, beq_eq_false_iff_ne.2 hne] at h
      rw [ih h]

/-! ### Sizes -/

/-- Two entries agree on the size of a common dimension, up to axes of size one. -/
def Agree (e f : Entry V) : Prop :=
  ∀ (ds es : List String) (i j : ℕ) (c : String), e.dims = some ds → f.dims = some es → ds[i]? = some c → es[j]? = some c →
    ∃ n m, e.arr.shape[i]? = some n ∧ f.arr.shape[j]? = some m ∧ (n = m ∨ n = 1 ∨ m = 1)

/-- All entries agree with each other. -/
def AllAgree (d : Data V) : Prop := ∀ v w e f, d.entries.lookup v = some e → d.entries.lookup w = some f → Agree e f

/-- an entry fits to a table of sizes -/
def Fits (sizes : List (String × ℕ)) (e : Entry V) : Prop :=
  ∀ (ds : List String) (i : ℕ) (c : String), e.dims = some ds → ds[i]? = some c → ∃ n m, e.arr.shape[i]? = some n ∧ sizes.lookup c = some m ∧ (n = m ∨ n = 1)

/-- sizes may only change from one to something else -/
def Grows (s s' : List (String × ℕ)) : Prop := ∀ c m, s.lookup c = some m → ∃ m', s'.lookup c = some m' ∧ (m' = m ∨ m = 1)

lemma Grows.refl (s : List (String × ℕ)) : Grows s s := fun _ m h => ⟨m, h, Or.inl rfl⟩

lemma Grows.trans {s t u : List (String × ℕ)} (h : Grows s t) (h' : Grows t u) : Grows s u := by
  intro c m hm
  obtain ⟨m1, h1, e1⟩ := h c m hm
  obtain ⟨m2, h2, e2⟩ := h' c m1 h1
  refine ⟨m2, h2, ?_⟩
  rcases e1 with rfl | e1
  · exact e2
  · exact Or.inr e1

lemma Fits.mono {s s' : List (String × ℕ)} {e : Entry V} (h : Fits s e) (hg : Grows s s') : Fits s' e := by
  intro ds i c hd hc
  obtain ⟨n, m, h1, h2, h3⟩ := h ds i c hd hc
  obtain ⟨m', h4, h5⟩ := hg c m h2
  refine ⟨n, m', h1, h4, ?_⟩
  rcases h3 with rfl | rfl
  · rcases h5 with rfl | rfl
    · exact Or.inl rfl
    · exact Or.inr rfl
  · exact Or.inr rfl

lemma grows_insert (s : List (String × ℕ)) (c : String) (n : ℕ) (h : s.lookup c = none ∨ s.lookup c = some 1) : Grows s (insertKey c n s) := by
  intro c' m hm
  rw [lookup_insertKey]
  by_cases hc : c' = c
  · subst hc
    rcases h with h | h
    · rw [h] at hm; simp at hm
    · rw [h] at hm
      simp at hm
      exact ⟨n, by simp, Or.inr hm.symm⟩
  · exact ⟨m, by simp [hc, hm], Or.inl rfl⟩

lemma checkSizes_spec (sizes : List (String × ℕ)) (cs : List String) (ns : List ℕ) :
    Grows sizes (checkSizes sizes cs ns).1 ∧
    ((checkSizes sizes cs ns).2 = none → ∀ (i : ℕ) (c : String), cs[i]? = some c →
      ∃ n m, ns[i]? = some n ∧ (checkSizes sizes cs ns).1.lookup c = some m ∧ (n = m ∨ n = 1)) := by
  induction cs generalizing sizes ns with
  | nil => exact ⟨Grows.refl _, by simp⟩
  | cons c cs ih =>
    cases ns with
    | nil => exact ⟨Grows.refl _, by simp [checkSizes]⟩
    | cons n ns =>
      have main : ∀ sizes' : List (String × ℕ), Grows sizes sizes' → (∃ m, sizes'.lookup c = some m ∧ (n = m ∨ n = 1)) →
          Grows sizes (checkSizes sizes' cs ns).1 ∧ ((checkSizes sizes' cs ns).2 = none → ∀ (i : ℕ) (c' : String), (c :: cs)[i]? = some c' →
            ∃ k m, (n :: ns)[i]? = some k ∧ (checkSizes sizes' cs ns).1.lookup c' = some m ∧ (k = m ∨ k = 1)) := by
        intro sizes' hg hm
        obtain ⟨g, h⟩ := ih sizes' ns
        refine ⟨hg.trans g, ?_⟩
        intro hn i c' hc'
        cases i with
        | zero =>
          simp at hc'; subst hc'
          obtain ⟨m, h1, h2⟩ := hm
          obtain ⟨m', h3, h4⟩ := g c m h1
          refine ⟨n, m', rfl, h3, ?_⟩
          rcases h2 with rfl | rfl
          · rcases h4 with rfl | rfl
            · exact Or.inl rfl
            · exact Or.inr rfl
          · exact Or.inr rfl
        | succ i =>
          obtain ⟨k, m, h1, h2, h3⟩ := h hn i c' (by simpa using hc')
          exact ⟨k, m, by simpa using h1, h2, h3⟩
      simp only [checkSizes]
      cases hl : sizes.lookup c with
      | none =>
        exact main _ (grows_insert sizes c n (Or.inl hl)) ⟨n, by rw [lookup_insertKey]; simp, Or.inl rfl⟩
      | some m =>
        simp only
        split
        · rename_i h1
          exact main _ (grows_insert sizes c n (Or.inr (by rw [hl, h1]))) ⟨n, by rw [lookup_insertKey]; simp, Or.inl rfl⟩
        · split
          · rename_i h1
            exact main _ (Grows.refl _) ⟨m, hl, Or.inr h1⟩
          · split
            · exact ⟨Grows.refl _, by simp⟩
            · rename_i h1
              exact main _ (Grows.refl _) ⟨m, hl, Or.inl (by
                have : m = n := by simpa using h1
                exact this.symm)⟩

lemma entryChecks_spec (d d' : Data V) (name : String) (e : Entry V) (h : entryChecks d name e = (d', none)) :
    Grows d.sizes d'.sizes ∧ d'.i0 = d.i0 ∧ d'.loopDims = d.loopDims ∧ (∀ v, v ≠ name → d'.entries.lookup v = d.entries.lookup v) ∧
    (e.dims = none → d' = d) ∧ (e.dims ≠ none → ∃ e', d'.entries.lookup name = some e' ∧ e'.dims = e.dims ∧ Fits d'.sizes e') := by
  unfold entryChecks at h
  cases hd : e.dims with
  | none =>
    simp only [hd] at h
    simp at h; subst h
    exact ⟨Grows.refl _, rfl, rfl, fun _ _ => rfl, fun _ => rfl, by simp⟩
  | some dims =>
    simp only [hd] at h
    cases hk : kept d.loopDims dims e.arr with
    | error x => rw [hk] at h; simp at h
    | ok a =>
      rw [hk] at h
      simp only [Prod.mk.injEq] at h
      obtain ⟨rfl, h2⟩ := h
      obtain ⟨g, hf⟩ := checkSizes_spec d.sizes dims a.shape
      refine ⟨g, rfl, rfl, ?_, by simp, ?_⟩
      · intro v hv
        simp [lookup_insertKey, hv]
      · intro _
        refine ⟨⟨a, some dims⟩, by simp [lookup_insertKey], rfl, ?_⟩
        intro ds i c hds hc
        simp at hds; subst hds
        exact hf h2 i c hc

lemma initLoop_spec (l : List (String × Entry V)) (d d' : Data V) (h : initLoop d l = .ok d') (hnd : (l.map Prod.fst).Nodup)
    (hl : ∀ v e, (v, e) ∈ l → d.entries.lookup v = some e) :
    Grows d.sizes d'.sizes ∧ d'.i0 = d.i0 ∧ d'.loopDims = d.loopDims ∧
    ∀ v e, d'.entries.lookup v = some e → Fits d'.sizes e ∨ (v ∉ l.map Prod.fst ∧ d.entries.lookup v = some e) := by
  induction l generalizing d with
  | nil =>
    simp [initLoop] at h; subst h
    exact ⟨Grows.refl _, rfl, rfl, fun v e he => Or.inr ⟨by simp, he⟩⟩
  | cons p l ih =>
    obtain ⟨w, f⟩ := p
    simp only [initLoop] at h
    cases hec : entryChecks d w f with
    | mk d1 o =>
      rw [hec] at h
      cases o with
      | some x => simp at h
      | none =>
        simp only at h
        obtain ⟨g1, i1, l1, h1, h2, h3⟩ := entryChecks_spec d d1 w f hec
        simp only [List.map_cons, List.nodup_cons] at hnd
        obtain ⟨g2, i2, l2, h4⟩ := ih d1 h hnd.2 (by
          intro v e hve
          have hvw : v ≠ w := by
            rintro rfl
            exact hnd.1 (List.mem_map.2 ⟨(v, e), hve, rfl⟩)
          rw [h1 v hvw]
          exact hl v e (by simp [hve]))
        refine ⟨g1.trans g2, i2.trans i1, l2.trans l1, ?_⟩
        intro v e he
        rcases h4 v e he with hF | ⟨hnot, hv1⟩
        · exact Or.inl hF
        · by_cases hvw : v = w
          · subst hvw
            left
            by_cases hfd : f.dims = none
            · have := h2 hfd
              subst this
              rw [hl v f (by simp)] at hv1
              simp at hv1; subst hv1
              intro ds i c hds _
              rw [hfd] at hds; simp at hds
            · obtain ⟨e', he', _, hF⟩ := h3 hfd
              rw [he'] at hv1
              simp at hv1; subst hv1
              exact hF.mono g2
          · right
            refine ⟨?_, by rw [← h1 v hvw]; exact hv1⟩
            simp only [List.map_cons, List.mem_cons, not_or]
            exact ⟨hvw, hnot⟩

/-- all entries fit to the table -/
def AllFit (d : Data V) : Prop := ∀ v e, d.entries.lookup v = some e → Fits d.sizes e

lemma AllFit.agree {d : Data V} (h : AllFit d) : AllAgree d := by
  intro v w e f he hf ds es i j c hds hes hi hj
  obtain ⟨n, m, h1, h2, h3⟩ := h v e he ds i c hds hi
  obtain ⟨n', m', h1', h2', h3'⟩ := h w f hf es j c hes hj
  rw [h2] at h2'
  simp at h2'; subst h2'
  exact ⟨n, n', h1, h1', by rcases h3 with rfl | rfl <;> rcases h3' with rfl | rfl <;> simp⟩

/-- the step that adds a coordinate -/
def coordStep (coord : ℕ → V) (sizes : List (String × ℕ)) (es : List (String × Entry V)) (c : String) : List (String × Entry V) :=
  if (es.lookup c).isSome then es
  else match sizes.lookup c with
    | none => es
    | some n => insertKey c ⟨⟨[n], fun idx => coord (idx.headD 0)⟩, some [c]⟩ es

lemma coordFold_spec (coord : ℕ → V) (sizes : List (String × ℕ)) (cs : List String) (es : List (String × Entry V)) :
    (∀ v e, es.lookup v = some e → (cs.foldl (coordStep coord sizes) es).lookup v = some e) ∧
    (∀ v e, (cs.foldl (coordStep coord sizes) es).lookup v = some e → es.lookup v = some e ∨
      (es.lookup v = none ∧ v ∈ cs ∧ ∃ n, sizes.lookup v = some n ∧ e = ⟨⟨[n], fun idx => coord (idx.headD 0)⟩, some [v]⟩)) ∧
    (∀ c ∈ cs, ∀ n, sizes.lookup c = some n → ((cs.foldl (coordStep coord sizes) es).lookup c).isSome) := by
  induction cs generalizing es with
  | nil => simp
  | cons c cs ih =>
    obtain ⟨h1, h2, h3⟩ := ih (coordStep coord sizes es c)
    have k1 : ∀ v e, es.lookup v = some e → (coordStep coord sizes es c).lookup v = some e := by
      intro v e he
      unfold coordStep
      split
      · exact he
      · rename_i hc
        split
        · exact he
        · rw [lookup_insertKey]
          have : v ≠ c := by rintro rfl; rw [he] at hc; simp at hc
          simp [this, he]
    refine ⟨fun v e he => h1 v e (k1 v e he), ?_, ?_⟩
    · intro v e he
      rw [List.foldl_cons] at he
      rcases h2 v e he with h | ⟨h, hm, hn⟩
      · unfold coordStep at h
        split at h
        · exact Or.inl h
        · rename_i hc
          split at h
          · exact Or.inl h
          · rename_i n hn
            rw [lookup_insertKey] at h
            by_cases hvc : v = c
            · subst hvc
              rw [if_pos rfl] at h
              right
              exact ⟨Option.not_isSome_iff_eq_none.1 hc, by simp, n, hn, (Option.some.inj h).symm⟩
            · rw [if_neg hvc] at h
              exact Or.inl h
      · right
        refine ⟨?_, by simp [hm], hn⟩
        cases hes : es.lookup v with
        | none => rfl
        | some e' => rw [k1 v e' hes] at h; simp at h
    · intro c' hc' n hn
      rw [List.foldl_cons]
      rcases List.mem_cons.1 hc' with rfl | hc'
      · have : ((coordStep coord sizes es c').lookup c').isSome := by
          unfold coordStep
          split
          · assumption
          · rw [hn]; simp [lookup_insertKey]
        obtain ⟨e, he⟩ := Option.isSome_iff_exists.1 this
        rw [h1 c' e he]; rfl
      · exact h3 c' hc' n hn

lemma autoUpdate_eq (coord : ℕ → V) (d : Data V) :
    autoUpdate coord d = { d with entries := (dimNames d.entries).foldl (coordStep coord d.sizes) d.entries } := rfl

lemma autoUpdate_fit (coord : ℕ → V) (d : Data V) (h : AllFit d) : AllFit (autoUpdate coord d) := by
  rw [autoUpdate_eq]
  intro v e he
  obtain ⟨_, h2, _⟩ := coordFold_spec coord d.sizes (dimNames d.entries) d.entries
  rcases h2 v e he with he | ⟨_, _, n, hn, rfl⟩
  · exact h v e he
  · intro ds i c hds hc
    simp at hds; subst hds
    cases i with
    | zero => simp at hc; subst hc; exact ⟨n, n, rfl, hn, Or.inl rfl⟩
    | succ i => simp at hc

lemma create_fit (coord : ℕ → V) (es : List (String × Entry V)) (ld : List String) (i0 : Option ℕ) (d : Data V)
    (hnd : (es.map Prod.fst).Nodup) (h : create coord es ld i0 = .ok d) : AllFit d := by
  unfold create at h
  cases hi : initLoop { entries := es, sizes := [], loopDims := ld, i0 := i0 } es with
  | error x => rw [hi] at h; simp at h
  | ok d1 =>
    rw [hi] at h
    simp at h; subst h
    apply autoUpdate_fit
    have hmem : ∀ v e, (v, e) ∈ es → es.lookup v = some e := by
      clear hi
      induction es with
      | nil => simp
      | cons p es ih =>
        obtain ⟨a, x⟩ := p
        simp only [List.map_cons, List.nodup_cons] at hnd
        intro v e hve
        rcases List.mem_cons.1 hve with hve | hve
        · obtain ⟨rfl, rfl⟩ := Prod.mk.inj hve
          simp
        · have : v ≠ a := fun hva => hnd.1 (List.mem_map.2 ⟨(v, e), hve, hva⟩)
          simp only [List.lookup, beq_eq_false_iff_ne.2 this]
          exact ih hnd.2 v e hve
    obtain ⟨_, _, _, hf⟩ := initLoop_spec es _ d1 hi hnd hmem
    intro v e he
    rcases hf v e he with hF | ⟨hv, hes⟩
    · exact hF
    · exfalso
      apply hv
      have hes' : es.lookup v = some e := hes
      clear hi hf hnd hmem he hv hes
      rename' hes' => hes
      clear * - hes
      induction es with
      | nil => simp at hes
      | cons p es ih =>
        obtain ⟨a, x⟩ := p
        by_cases hva : v = a
        · simp [hva]
        · simp only [List.lookup, beq_eq_false_iff_ne.2 hva] at hes
          exact List.mem_cons_of_mem _ (ih hes)

/-- a sequence of additions; an addition that raises ends it -/
def addAll (coord : ℕ → V) (d : Data V) : List (String × Entry V) → Except Err (Data V)
  | [] => .ok d
  | (v, e) :: l =>
    match add coord d v e with
    | (_, some x) => .error x
    | (d', none) => addAll coord d' l

lemma add_fit (coord : ℕ → V) (d d' : Data V) (v : String) (e : Entry V) (h : add coord d v e = (d', none)) (hd : AllFit d) : AllFit d' := by
  unfold add at h
  simp only at h
  cases hec : entryChecks { d with entries := insertKey v e d.entries } v e with
  | mk d2 o =>
    rw [hec] at h
    cases o with
    | some x => simp at h
    | none =>
      simp at h; subst h
      apply autoUpdate_fit
      obtain ⟨g, _, _, h1, h2, h3⟩ := entryChecks_spec _ _ _ _ hec
      intro w f hf
      by_cases hw : w = v
      · subst hw
        by_cases hed : e.dims = none
        · have := h2 hed
          subst this
          simp [lookup_insertKey] at hf
          subst hf
          intro ds i c hds _
          rw [hed] at hds; simp at hds
        · obtain ⟨e', he', _, hF⟩ := h3 hed
          rw [he'] at hf
          simp at hf; subst hf
          exact hF
      · rw [h1 w hw] at hf
        simp only [lookup_insertKey, if_neg hw] at hf
        exact (hd w f hf).mono g

/-- All entries of a container that was created and filled without an exception agree on the sizes of their common dimensions, up to axes of size one; for all
sequences of additions. -/
theorem C43_sizes_agree (coord : ℕ → V) (es : List (String × Entry V)) (ld : List String) (i0 : Option ℕ) (hnd : (es.map Prod.fst).Nodup)
    (l : List (String × Entry V)) (d d' : Data V) (hd : create coord es ld i0 = .ok d) (h : addAll coord d l = .ok d') : AllAgree d' := by
  have : ∀ (l : List (String × Entry V)) (d : Data V), AllFit d → addAll coord d l = .ok d' → AllFit d' := by
    intro l
    induction l with
    | nil => intro d hd h; simp [addAll] at h; subst h; exact hd
    | cons p l ih =>
      obtain ⟨v, e⟩ := p
      intro d hd h
      simp only [addAll] at h
      cases ha : add coord d v e with
      | mk d1 o =>
        rw [ha] at h
        cases o with
        | some x => simp at h
        | none => exact ih d1 (add_fit coord d d1 v e ha hd) h
  exact (this l d (create_fit coord es ld i0 d hnd hd) h).agree

/-- the sizes table is the common size: it is the size of every axis that is not of size one -/
theorem C43_sizes_table (coord : ℕ → V) (es : List (String × Entry V)) (ld : List String) (i0 : Option ℕ) (hnd : (es.map Prod.fst).Nodup)
    (d : Data V) (hd : create coord es ld i0 = .ok d) (v : String) (e : Entry V) (ds : List String) (i : ℕ) (c : String)
    (he : d.entries.lookup v = some e) (hds : e.dims = some ds) (hc : ds[i]? = some c) :
    ∃ n, e.arr.shape[i]? = some n ∧ (n = 1 ∨ d.size c = some n) := by
  obtain ⟨n, m, h1, h2, h3⟩ := create_fit coord es ld i0 d hnd hd v e he ds i c hds hc
  refine ⟨n, h1, ?_⟩
  rcases h3 with rfl | rfl
  · exact Or.inr h2
  · exact Or.inl rfl

/-- array with given shape -/
def arr (shape : List ℕ) : Arr ℕ := ⟨shape, fun idx => idx.headD 0⟩

/-- outcome of an operation, in a form that can be computed: the shapes of the entries and the sizes -/
def view (d : Data ℕ) : List (String × List ℕ) × List (String × ℕ) := (d.entries.map (fun e => (e.1, e.2.arr.shape)), d.sizes)

/-- a case: a container that is created and filled -/
example : ∃ d d', create id [("WS", ⟨arr [3, 2], some ["state", "turbine"]⟩)] ["state"] (some 0) = .ok d ∧
    addAll id d [("WEIGHT", ⟨arr [3, 1], some ["state", "turbine"]⟩), ("H", ⟨arr [3, 2], some ["state", "turbine"]⟩)] = .ok d' ∧
    view d' = ([("WS", [3, 2]), ("state", [3]), ("turbine", [2]), ("WEIGHT", [3, 1]), ("H", [3, 2])], [("state", 3), ("turbine", 2)]) :=
  ⟨_, _, rfl, rfl, rfl⟩

/-- An addition that is refused is nevertheless stored: the entry is in the container after the exception, which then violates the agreement. -/
theorem C43_refused_entry_stays : ∃ d d' : Data ℕ, create id [("WS", ⟨arr [3, 2], some ["state", "turbine"]⟩)] ["state"] (some 0) = .ok d ∧
    add id d "H" ⟨arr [3, 5], some ["state", "turbine"]⟩ = (d', some .valueError) ∧ ¬ AllAgree d' := by
  refine ⟨_, _, rfl, rfl, ?_⟩
  intro h
  have := h "WS" "H" _ _ rfl rfl ["state", "turbine"] ["state", "turbine"] 1 1 "turbine" rfl rfl rfl rfl
  obtain ⟨n, m, h1, h2, h3⟩ := this
  simp [arr] at h1 h2
  omega

/-- A dimension that starts with size one and grows by a later addition leaves its index coordinate behind: five states, but the coordinate has one value. -/
theorem C43_stale_coordinate : ∃ d d' : Data ℕ, create id [("A", ⟨arr [1], some ["state"]⟩)] ["state"] (some 0) = .ok d ∧
    add id d "B" ⟨arr [5], some ["state"]⟩ = (d', none) ∧ d'.size "state" = some 5 ∧ (d'.entries.lookup "state").map (·.arr.shape) = some [1] :=
  ⟨_, _, rfl, rfl, rfl, rfl⟩

/-- Axes of size one that dask added for a loop dimension are removed, if there is one of them. -/
theorem C43_squeeze_one (l : String) (dims : List String) (ns : List ℕ) (val : List ℕ → V) (hlen : dims.length = ns.length) (hd : dims.head? ≠ some l) :
    ∃ a, kept [l] dims ⟨1 :: ns, val⟩ = .ok a ∧ a.shape = ns ∧ ∀ idx, a.val idx = val (0 :: idx) := by
  have h0 : dims[0]? ≠ some l := by rwa [← List.head?_eq_getElem?]
  refine ⟨(⟨1 :: ns, val⟩ : Arr V).squeeze 0, ?_, ?_, ?_⟩
  · have : dims.length ≠ (1 :: ns).length := by simp [hlen]
    simp only [kept, if_pos this]
    simp [squeezeLoop, h0]
  · simp [Arr.squeeze]
  · intro idx; simp [Arr.squeeze]

/-- With two of them only the last one is removed, and the sizes are taken from the wrong axes. -/
theorem C43_squeeze_two_not : ∃ d : Data ℕ, create id [("x", ⟨arr [1, 1, 5], some ["x"]⟩)] ["state", "target"] (some 0) = .ok d ∧
    (d.entries.lookup "x").map (·.arr.shape) = some [1, 5] ∧ d.size "x" = some 1 :=
  ⟨_, rfl, rfl, rfl⟩

/-! ### Slices -/

/-- Containers as they occur: all entries have a dimension for each axis, and all dimensions have coordinates. -/
structure Whole (d : Data V) : Prop where
  rank : ∀ v e, (v, e) ∈ d.entries → ∃ ds, e.dims = some ds ∧ ds.length = e.arr.shape.length
  keys : (d.entries.map Prod.fst).Nodup
  coords : ∀ v e ds c, (v, e) ∈ d.entries → e.dims = some ds → c ∈ ds → (d.entries.lookup c).isSome

lemma lookup_of_mem {α : Type} (l : List (String × α)) (hnd : (l.map Prod.fst).Nodup) (v : String) (e : α) (h : (v, e) ∈ l) : l.lookup v = some e := by
  induction l with
  | nil => simp at h
  | cons p l ih =>
    obtain ⟨a, x⟩ := p
    simp only [List.map_cons, List.nodup_cons] at hnd
    rcases List.mem_cons.1 h with h | h
    · obtain ⟨rfl, rfl⟩ := Prod.mk.inj h
      simp
    · have : v ≠ a := fun hva => hnd.1 (List.mem_map.2 ⟨(v, e), h, hva⟩)
      simp only [List.lookup, beq_eq_false_iff_ne.2 this]
      exact ih hnd.2 h

lemma mem_of_lookup {α : Type} (l : List (String × α)) (v : String) (e : α) (h : l.lookup v = some e) : (v, e) ∈ l := by
  induction l with
  | nil => simp at h
  | cons p l ih =>
    obtain ⟨a, x⟩ := p
    by_cases hva : v = a
    · subst hva; simp at h; simp [h]
    · simp only [List.lookup, beq_eq_false_iff_ne.2 hva] at h
      exact List.mem_cons_of_mem _ (ih h)

lemma axisIdx_length (dim : String) (s : Sel) (ds : List String) (ns : List ℕ) (sel : List (List ℕ)) (h : axisIdx dim s ds ns = .ok sel) :
    sel.length = ns.length := by
  induction ds generalizing ns sel with
  | nil => simp [axisIdx] at h; subst h; simp
  | cons c cs ih =>
    cases ns with
    | nil => simp [axisIdx] at h
    | cons n ns =>
      simp only [axisIdx] at h
      split at h
      · rename_i l ls h1 h2
        simp at h; subst h
        simp [ih ns ls h2]
      · simp at h
      · simp at h

lemma sliceEntries_spec (dim : String) (s : Sel) (es r : List (String × Entry V)) (h : sliceEntries dim s es = .ok r)
    (hr : ∀ v e, (v, e) ∈ es → ∃ ds, e.dims = some ds ∧ ds.length = e.arr.shape.length) :
    r.map Prod.fst = es.map Prod.fst ∧
    (∀ v e', (v, e') ∈ r → ∃ e ds sel, (v, e) ∈ es ∧ e.dims = some ds ∧ axisIdx dim s ds e.arr.shape = .ok sel ∧ e' = ⟨e.arr.take sel, some ds⟩) ∧
    (∀ v e, (v, e) ∈ es → ∃ ds sel, e.dims = some ds ∧ axisIdx dim s ds e.arr.shape = .ok sel ∧ (v, ⟨e.arr.take sel, some ds⟩) ∈ r) := by
  induction es generalizing r with
  | nil => simp [sliceEntries] at h; subst h; simp
  | cons p es ih =>
    obtain ⟨v, e⟩ := p
    obtain ⟨ds, hds, hlen⟩ := hr v e (by simp)
    simp only [sliceEntries, hds] at h
    split at h
    · rename_i sel r' h1 h2
      simp at h; subst h
      obtain ⟨i1, i2, i3⟩ := ih r' h2 (fun v e hve => hr v e (by simp [hve]))
      refine ⟨by simp [i1], ?_, ?_⟩
      · intro w f hf
        rcases List.mem_cons.1 hf with hf | hf
        · obtain ⟨rfl, rfl⟩ := Prod.mk.inj hf
          exact ⟨e, ds, sel, by simp, hds, h1, rfl⟩
        · obtain ⟨e2, ds2, sel2, a, b, c, d⟩ := i2 w f hf
          exact ⟨e2, ds2, sel2, by simp [a], b, c, d⟩
      · intro w f hf
        rcases List.mem_cons.1 hf with hf | hf
        · obtain ⟨rfl, rfl⟩ := Prod.mk.inj hf
          exact ⟨ds, sel, hds, h1, by simp⟩
        · obtain ⟨ds2, sel2, a, b, c⟩ := i3 w f hf
          exact ⟨ds2, sel2, a, b, by simp [c]⟩
    · simp at h
    · simp at h

/-- creating a container from whole entries keeps them -/
lemma create_entries (coord : ℕ → V) (es : List (String × Entry V)) (ld : List String) (i0 : Option ℕ) (d : Data V) (h : create coord es ld i0 = .ok d)
    (hr : ∀ v e, (v, e) ∈ es → ∃ ds, e.dims = some ds ∧ ds.length = e.arr.shape.length) (hk : (es.map Prod.fst).Nodup)
    (hc : ∀ v e ds c, (v, e) ∈ es → e.dims = some ds → c ∈ ds → (es.lookup c).isSome) : d.entries = es ∧ d.i0 = i0 ∧ d.loopDims = ld := by
  unfold create at h
  cases hi : initLoop { entries := es, sizes := [], loopDims := ld, i0 := i0 } es with
  | error x => rw [hi] at h; simp at h
  | ok d1 =>
    rw [hi] at h
    simp at h; subst h
    have step : ∀ (l : List (String × Entry V)) (d0 d1 : Data V), (∀ v e, (v, e) ∈ l → d0.entries.lookup v = some e) →
        (∀ v e, (v, e) ∈ l → ∃ ds, e.dims = some ds ∧ ds.length = e.arr.shape.length) → initLoop d0 l = .ok d1 → d1.entries = d0.entries ∧ d1.i0 = d0.i0 ∧ d1.loopDims = d0.loopDims := by
      intro l
      induction l with
      | nil => intro d0 d1 _ _ h; simp [initLoop] at h; subst h; exact ⟨rfl, rfl, rfl⟩
      | cons p l ih =>
        obtain ⟨v, e⟩ := p
        intro d0 d1 hl hrk h
        obtain ⟨ds, hds, hlen⟩ := hrk v e (by simp)
        simp only [initLoop, entryChecks, hds, kept, hlen, ne_eq, not_true_eq_false, if_false] at h
        have he : (⟨e.arr, some ds⟩ : Entry V) = e := by cases e; simp at hds; simp [hds]
        have hself : insertKey v ⟨e.arr, some ds⟩ d0.entries = d0.entries := by
          rw [he]; exact insertKey_self v e _ (hl v e (by simp))
        rw [hself] at h
        cases ho : (checkSizes d0.sizes ds e.arr.shape).2 with
        | some x => rw [ho] at h; simp at h
        | none =>
          rw [ho] at h
          simp only at h
          exact ih { d0 with sizes := (checkSizes d0.sizes ds e.arr.shape).1 } d1 (fun w f hf => hl w f (by simp [hf])) (fun w f hf => hrk w f (by simp [hf])) h
    obtain ⟨e1, e2, e3⟩ := step es _ d1 (fun v e hve => lookup_of_mem es hk v e hve) hr hi
    simp only at e1 e2 e3
    refine ⟨?_, e2, e3⟩
    rw [autoUpdate_eq]
    simp only
    rw [e1]
    have nochange : ∀ cs : List String, (∀ c ∈ cs, (es.lookup c).isSome) → cs.foldl (coordStep coord d1.sizes) es = es := by
      intro cs
      induction cs with
      | nil => intro _; rfl
      | cons c cs ih =>
        intro hcs
        rw [List.foldl_cons]
        have : coordStep coord d1.sizes es c = es := by simp [coordStep, hcs c (by simp)]
        rw [this]
        exact ih (fun c' hc' => hcs c' (by simp [hc']))
    apply nochange
    intro c hcm
    simp only [dimNames, List.mem_flatMap] at hcm
    obtain ⟨⟨v, e⟩, hve, hce⟩ := hcm
    obtain ⟨ds, hds, _⟩ := hr v e hve
    simp only [hds, Option.getD_some] at hce
    exact hc v e ds c hve hds hce

/-- The rows that a selection picks for the given dimensions: for axes of dimension `dim` the position in the list `l`, for the others the index itself. -/
def sourceIdx (dim : String) (l : List ℕ) (ds : List String) (idx : List ℕ) : List ℕ := List.zipWith (fun c i => if c = dim then l.getD i 0 else i) ds idx

lemma axisIdx_spec (dim : String) (s : Sel) (l : List ℕ) (n : ℕ) (hl : s.idx n = .ok l) (ds : List String) (ns : List ℕ) (sel : List (List ℕ))
    (hlen : ds.length = ns.length) (hfull : ∀ i : ℕ, ds[i]? = some dim → ns[i]? = some n) (h : axisIdx dim s ds ns = .ok sel) :
    sel.map List.length = List.zipWith (fun c m => if c = dim then l.length else m) ds ns ∧
    ∀ idx, List.Forall₂ (· < ·) idx (sel.map List.length) → List.zipWith (fun l i => l.getD i 0) sel idx = sourceIdx dim l ds idx := by
  induction ds generalizing ns sel with
  | nil =>
    cases ns with
    | nil => simp [axisIdx] at h; subst h; simp [sourceIdx]
    | cons n ns => simp at hlen
  | cons c cs ih =>
    cases ns with
    | nil => simp at hlen
    | cons m ns =>
      simp only [axisIdx] at h
      split at h
      · rename_i l1 ls h1 h2
        simp at h; subst h
        obtain ⟨i1, i2⟩ := ih ns ls (by simpa using hlen) (fun i hi => hfull (i + 1) (by simpa using hi)) h2
        by_cases hc : c = dim
        · have hm : m = n := by
            have := hfull 0 (by simp [hc])
            simpa using this
          subst hm
          rw [if_pos hc, hl] at h1
          simp at h1; subst h1
          refine ⟨by simp [hc, i1], ?_⟩
          intro idx hF
          cases hF with
          | cons ha hb => simp [sourceIdx, hc]; simpa [sourceIdx] using i2 _ hb
        · rw [if_neg hc] at h1
          simp at h1; subst h1
          refine ⟨by simp [hc, i1], ?_⟩
          intro idx hF
          cases hF with
          | cons ha hb =>
            simp at ha
            simp [sourceIdx, hc, List.getElem?_range ha]
            simpa [sourceIdx] using i2 _ hb
      · simp at h
      · simp at h

/-- A slice contains all entries, each with the selected rows: an entry whose axes of the sliced dimension have the full length `n` gets, there, the rows that
the selection picks out of `n`. -/
theorem C43_slice_values (coord : ℕ → V) (d d' : Data V) (hW : Whole d) (dim : String) (s : Sel) (h : getSlice coord d dim s = .ok d') (v : String) (e : Entry V)
    (ds : List String) (he : (v, e) ∈ d.entries) (hds : e.dims = some ds) (n : ℕ) (l : List ℕ) (hfull : ∀ i : ℕ, ds[i]? = some dim → e.arr.shape[i]? = some n)
    (hl : s.idx n = .ok l) :
    ∃ e', (v, e') ∈ d'.entries ∧ e'.dims = some ds ∧ e'.arr.shape = List.zipWith (fun c m => if c = dim then l.length else m) ds e.arr.shape ∧
      ∀ idx, List.Forall₂ (· < ·) idx e'.arr.shape → e'.arr.val idx = e.arr.val (sourceIdx dim l ds idx) := by
  unfold getSlice at h
  cases hs : sliceEntries dim s d.entries with
  | error x => rw [hs] at h; simp at h
  | ok es =>
    rw [hs] at h
    simp only at h
    cases hi : sliceI0 d dim s with
    | error x => rw [hi] at h; simp at h
    | ok i0 =>
      rw [hi] at h
      simp only at h
      obtain ⟨k1, k2, k3⟩ := sliceEntries_spec dim s d.entries es hs hW.rank
      have hr' : ∀ v e, (v, e) ∈ es → ∃ ds, e.dims = some ds ∧ ds.length = e.arr.shape.length := by
        intro w f hf
        obtain ⟨e2, ds2, sel2, a, b, c, rfl⟩ := k2 w f hf
        obtain ⟨ds3, b', hl3⟩ := hW.rank w e2 a
        rw [b] at b'; simp at b'; subst b'
        exact ⟨ds2, rfl, by simp [Arr.take, axisIdx_length _ _ _ _ _ c, hl3]⟩
      have hc' : ∀ v e ds c, (v, e) ∈ es → e.dims = some ds → c ∈ ds → (es.lookup c).isSome := by
        intro w f ds2 c hf hd2 hc
        obtain ⟨e2, ds3, sel2, a, b, _, rfl⟩ := k2 w f hf
        simp at hd2; subst hd2
        obtain ⟨g, hg⟩ := Option.isSome_iff_exists.1 (hW.coords w e2 ds3 c a b hc)
        obtain ⟨ds4, sel4, _, _, hm⟩ := k3 c g (mem_of_lookup _ _ _ hg)
        rw [lookup_of_mem es (by rw [k1]; exact hW.keys) _ _ hm]; rfl
      obtain ⟨e1, _, _⟩ := create_entries coord es d.loopDims i0 d' h hr' (by rw [k1]; exact hW.keys) hc'
      obtain ⟨ds2, sel, hd2, hsel, hm⟩ := k3 v e he
      rw [hds] at hd2
      simp at hd2; subst hd2
      obtain ⟨ds3, hd3, hlen⟩ := hW.rank v e he
      rw [hds] at hd3
      simp at hd3; subst hd3
      obtain ⟨a1, a2⟩ := axisIdx_spec dim s l n hl ds e.arr.shape sel hlen hfull hsel
      refine ⟨⟨e.arr.take sel, some ds⟩, by rw [e1]; exact hm, rfl, a1, ?_⟩
      intro idx hF
      simp only [Arr.take] at hF ⊢
      rw [a2 idx hF]

/-- slices of whole containers are whole -/
theorem C43_slice_whole (coord : ℕ → V) (d d' : Data V) (hW : Whole d) (dim : String) (s : Sel) (h : getSlice coord d dim s = .ok d') : Whole d' := by
  unfold getSlice at h
  cases hs : sliceEntries dim s d.entries with
  | error x => rw [hs] at h; simp at h
  | ok es =>
    rw [hs] at h
    simp only at h
    cases hi : sliceI0 d dim s with
    | error x => rw [hi] at h; simp at h
    | ok i0 =>
      rw [hi] at h
      simp only at h
      obtain ⟨k1, k2, k3⟩ := sliceEntries_spec dim s d.entries es hs hW.rank
      have hr' : ∀ v e, (v, e) ∈ es → ∃ ds, e.dims = some ds ∧ ds.length = e.arr.shape.length := by
        intro w f hf
        obtain ⟨e2, ds2, sel2, a, b, c, rfl⟩ := k2 w f hf
        obtain ⟨ds3, b', hl3⟩ := hW.rank w e2 a
        rw [b] at b'; simp at b'; subst b'
        exact ⟨ds2, rfl, by simp [Arr.take, axisIdx_length _ _ _ _ _ c, hl3]⟩
      have hk' : (es.map Prod.fst).Nodup := by rw [k1]; exact hW.keys
      have hc' : ∀ v e ds c, (v, e) ∈ es → e.dims = some ds → c ∈ ds → (es.lookup c).isSome := by
        intro w f ds2 c hf hd2 hc
        obtain ⟨e2, ds3, sel2, a, b, _, rfl⟩ := k2 w f hf
        simp at hd2; subst hd2
        obtain ⟨g, hg⟩ := Option.isSome_iff_exists.1 (hW.coords w e2 ds3 c a b hc)
        obtain ⟨ds4, sel4, _, _, hm⟩ := k3 c g (mem_of_lookup _ _ _ hg)
        rw [lookup_of_mem es hk' _ _ hm]; rfl
      obtain ⟨e1, _, _⟩ := create_entries coord es d.loopDims i0 d' h hr' hk' hc'
      exact ⟨by rw [e1]; exact hr', by rw [e1]; exact hk', by rw [e1]; exact hc'⟩

/-- Slices of slices compose: the rows are those that the second selection picks out of those of the first. -/
theorem C43_slice_of_slice (coord : ℕ → V) (d d1 d2 : Data V) (hW : Whole d) (dim : String) (s1 s2 : Sel) (h1 : getSlice coord d dim s1 = .ok d1)
    (h2 : getSlice coord d1 dim s2 = .ok d2) (v : String) (e : Entry V) (ds : List String) (he : (v, e) ∈ d.entries) (hds : e.dims = some ds) (n : ℕ)
    (l1 l2 : List ℕ) (hfull : ∀ i : ℕ, ds[i]? = some dim → e.arr.shape[i]? = some n) (hl1 : s1.idx n = .ok l1) (hl2 : s2.idx l1.length = .ok l2)
    (hb : ∀ i ∈ l2, i < l1.length) :
    ∃ e', (v, e') ∈ d2.entries ∧ e'.dims = some ds ∧
      ∀ idx, List.Forall₂ (· < ·) idx e'.arr.shape → e'.arr.val idx = e.arr.val (sourceIdx dim (l2.map (fun i => l1.getD i 0)) ds idx) := by
  obtain ⟨ds', hds', hlen⟩ := hW.rank v e he
  rw [hds] at hds'; simp at hds'; subst hds'
  obtain ⟨e1, m1, d1', sh1, v1⟩ := C43_slice_values coord d d1 hW dim s1 h1 v e ds he hds n l1 hfull hl1
  have hfull1 : ∀ i : ℕ, ds[i]? = some dim → e1.arr.shape[i]? = some l1.length := by
    intro i hi
    rw [sh1, List.getElem?_zipWith, hi, hfull i hi]
    simp
  obtain ⟨e2, m2, d2', sh2, v2⟩ := C43_slice_values coord d1 d2 (C43_slice_whole coord d d1 hW dim s1 h1) dim s2 h2 v e1 ds m1 d1' l1.length l2 hfull1 hl2
  refine ⟨e2, m2, d2', ?_⟩
  intro idx hF
  rw [v2 idx hF]
  have hF1 : List.Forall₂ (· < ·) (sourceIdx dim l2 ds idx) e1.arr.shape ∧
      sourceIdx dim l1 ds (sourceIdx dim l2 ds idx) = sourceIdx dim (l2.map (fun i => l1.getD i 0)) ds idx := by
    rw [sh2] at hF
    have hl : ds.length = e1.arr.shape.length := by rw [sh1]; simp [hlen]
    have hf : ∀ i : ℕ, ds[i]? = some dim → e1.arr.shape[i]? = some l1.length := hfull1
    generalize e1.arr.shape = sh at hF hl hf ⊢
    clear sh1 sh2 hfull hlen v1 v2 m1 m2 d1' d2' he hds hfull1
    induction ds generalizing sh idx with
    | nil =>
      cases sh with
      | nil =>
        simp at hF; subst hF
        simp [sourceIdx]
      | cons a b => simp at hl
    | cons c ds ih =>
      cases sh with
      | nil => simp at hl
      | cons m sh =>
        simp only [List.zipWith_cons_cons] at hF
        cases hF with
        | @cons i _ idx' _ ha hb' =>
          obtain ⟨r1, r2⟩ := ih idx' sh hb' (by simpa using hl) (fun j hj => hf (j + 1) (by simpa using hj))
          by_cases hc : c = dim
          · have hm : m = l1.length := by
              have := hf 0 (by simp [hc])
              simpa using this
            simp only [hc, if_true] at ha
            have hgi : l2.getD i 0 = l2[i] := by simp [List.getD, List.getElem?_eq_getElem ha]
            refine ⟨?_, ?_⟩
            · simp only [sourceIdx, List.zipWith_cons_cons, hc, if_true]
              refine List.Forall₂.cons ?_ (by simpa [sourceIdx] using r1)
              rw [hgi, hm]
              exact hb _ (List.getElem_mem ha)
            · simp only [sourceIdx, List.zipWith_cons_cons, hc, if_true]
              congr 1
              rw [hgi]
              simp [List.getD, List.getElem?_map, List.getElem?_eq_getElem ha]
          · simp only [hc, if_false] at ha
            refine ⟨?_, ?_⟩
            · simp only [sourceIdx, List.zipWith_cons_cons, hc, if_false]
              exact List.Forall₂.cons ha (by simpa [sourceIdx] using r1)
            · simp only [sourceIdx, List.zipWith_cons_cons, hc, if_false]
              congr 1
  rw [v1 _ hF1.1, hF1.2]

/-- The counter of the first state of a slice of states: the counter of the first state plus the position of the first selected state; and the selected
states are consecutive, so that state number `i` of the slice is always state number `states_i0 + i` of the calculation. -/
theorem C43_slice_states_i0 (coord : ℕ → V) (d d' : Data V) (hW : Whole d) (s : Sel) (h : getSlice coord d "state" s = .ok d') (k n : ℕ) (hk : d.i0 = some k)
    (hn : d.size "state" = some n) :
    ∃ l k', s.idx n = .ok l ∧ l ≠ [] ∧ d'.i0 = some k' ∧ ∀ i x : ℕ, l[i]? = some x → k + x = k' + i := by
  unfold getSlice at h
  cases hs : sliceEntries "state" s d.entries with
  | error x => rw [hs] at h; simp at h
  | ok es =>
    rw [hs] at h
    simp only at h
    cases hi : sliceI0 d "state" s with
    | error x => rw [hi] at h; simp at h
    | ok i0 =>
      rw [hi] at h
      simp only at h
      have hi0 : d'.i0 = i0 := by
        unfold create at h
        cases hin : initLoop { entries := es, sizes := [], loopDims := d.loopDims, i0 := i0 } es with
        | error x => rw [hin] at h; simp at h
        | ok d1 =>
          rw [hin] at h
          simp at h; subst h
          obtain ⟨k1, k2, k3⟩ := sliceEntries_spec "state" s d.entries es hs hW.rank
          obtain ⟨_, e, _, _⟩ := initLoop_spec es _ d1 hin (by rw [k1]; exact hW.keys)
            (fun v e hve => lookup_of_mem es (by rw [k1]; exact hW.keys) v e hve)
          exact e
      unfold sliceI0 at hi
      rw [hk] at hi
      simp only [ne_eq, not_true_eq_false, if_false, hn, Option.getD_some] at hi
      cases hl : s.idx n with
      | error x => rw [hl] at hi; simp at hi
      | ok l =>
        rw [hl] at hi
        simp only at hi
        cases l with
        | nil => simp at hi
        | cons x l =>
          simp only [List.map_cons] at hi
          split at hi
          · rename_i hcond
            simp at hi
            refine ⟨x :: l, x + k, rfl, by simp, by rw [hi0, ← hi], ?_⟩
            intro i y hy
            rcases hcond with h1 | h1
            · have hl0 : l = [] := by simpa using h1
              subst hl0
              cases i with
              | zero => simp at hy; omega
              | succ i => simp at hy
            · simp only [consecutive, decide_eq_true_eq] at h1
              have h2 : ((x + k) :: l.map (· + k))[i]? = some (y + k) := by
                have : ((x :: l).map (· + k))[i]? = some (y + k) := by rw [List.getElem?_map, hy]; rfl
                simpa using this
              rw [h1, List.getElem?_map] at h2
              simp only [List.headD_cons] at h2
              rcases hr : (List.range ((x + k) :: l.map (· + k)).length)[i]? with _ | z
              · rw [hr] at h2; simp at h2
              · rw [hr] at h2
                simp at h2
                have := List.getElem?_eq_some_iff.1 hr
                obtain ⟨_, hz⟩ := this
                simp at hz
                omega
          · simp at hi

/-- Slices `start:stop` of states are never refused unless they are empty; an empty one ends with an IndexError. -/
theorem C43_range_slices (d : Data V) (a b : Option ℤ) (k n : ℕ) (hk : d.i0 = some k) (hn : d.size "state" = some n) :
    sliceI0 d "state" (.range a b) = if bound n 0 a < bound n n b then .ok (some (k + bound n 0 a)) else .error .indexError := by
  unfold sliceI0
  rw [hk]
  simp only [ne_eq, not_true_eq_false, if_false, hn, Option.getD_some, Sel.idx]
  by_cases h : bound n 0 a < bound n n b
  · rw [if_pos h]
    obtain ⟨m, hm⟩ : ∃ m, bound n n b - bound n 0 a = m + 1 := ⟨bound n n b - bound n 0 a - 1, by omega⟩
    rw [hm]
    have e : ((List.range (m + 1)).map (· + bound n 0 a)).map (· + k) = (List.range (m + 1)).map (· + (bound n 0 a + k)) := by
      rw [List.map_map]; apply List.map_congr_left; intro x _; simp; omega
    simp only [e]
    cases hc : (List.range (m + 1)).map (· + (bound n 0 a + k)) with
    | nil => simp at hc
    | cons x xs =>
      have hx : x = bound n 0 a + k := by
        have := congrArg List.head? hc
        rw [List.range_succ_eq_map] at this
        simp at this
        exact this.symm
      have hlen : (x :: xs).length = m + 1 := by rw [← hc]; simp
      have hcons : consecutive (x :: xs) = true := by
        refine decide_eq_true ?_
        rw [hlen, List.headD_cons, ← hc, hx]
      show (if (x :: xs).length = 1 ∨ consecutive (x :: xs) = true then Except.ok (some x) else Except.error Err.valueError) = _
      rw [if_pos (Or.inr hcons), hx, Nat.add_comm]
  · rw [if_neg h]
    have : bound n n b - bound n 0 a = 0 := by omega
    rw [this]
    simp

/-- A slice along another dimension forgets the counter of states. -/
theorem C43_other_slices_lose_states_i0 (d : Data V) (dim : String) (s : Sel) (hd : dim ≠ "state") : sliceI0 d dim s = .ok none := by
  unfold sliceI0
  cases d.i0 <;> simp [hd]

/-- Entries with an axis of size one, which are allowed beside full ones, cannot be sliced: the slice is applied to the axis of size one as well, and unless it
starts at the first state the result is refused. -/
theorem C43_broadcast_slices_refused : ∃ d : Data ℕ,
    create id [("WS", ⟨arr [4, 2], some ["state", "turbine"]⟩), ("W", ⟨arr [1, 2], some ["state", "turbine"]⟩)] ["state"] (some 0) = .ok d ∧
    getSlice id d "state" (.range (some 2) (some 4)) = .error .valueError :=
  ⟨_, rfl, rfl⟩

/-- a case: the hypotheses of the slice theorems are met, and a slice of a slice -/
example : ∃ d d1 d2 : Data ℕ, create id [("WS", ⟨⟨[5, 2], fun idx => 10 * idx.headD 0 + idx.getD 1 0⟩, some ["state", "turbine"]⟩)] ["state"] (some 100) = .ok d ∧
    Whole d ∧ d.size "state" = some 5 ∧ getSlice id d "state" (.range (some 1) (some (-1))) = .ok d1 ∧ d1.i0 = some 101 ∧
    getSlice id d1 "state" (.range (some 1) none) = .ok d2 ∧ d2.i0 = some 102 ∧ d2.size "state" = some 2 ∧
    (d2.entries.lookup "WS").map (fun e => e.arr.val [1, 1]) = some 31 := by
  refine ⟨_, _, _, rfl, ⟨?_, ?_, ?_⟩, rfl, rfl, rfl, rfl, rfl, rfl, rfl⟩
  · intro v e h
    simp [dimNames, insertKey, autoUpdate, List.lookup, checkSizes] at h
    rcases h with ⟨rfl, rfl⟩ | ⟨rfl, rfl⟩ | ⟨rfl, rfl⟩ <;> exact ⟨_, rfl, rfl⟩
  · decide
  · intro v e ds c h hds hc
    simp [dimNames, insertKey, autoUpdate, List.lookup, checkSizes] at h
    rcases h with ⟨rfl, rfl⟩ | ⟨rfl, rfl⟩ | ⟨rfl, rfl⟩ <;>
    · simp at hds; subst hds
      simp at hc
      rcases hc with rfl | rfl <;> rfl

/-- Axes that belong to their dimensions are kept, also those of size one. -/
theorem C43_own_axes_kept (loopDims dims : List String) (a : Arr V) (hlen : loopDims.length ≤ a.shape.length)
    (h : ∀ (i : ℕ) (l : String), loopDims[i]? = some l → dims[i]? = some l) : kept loopDims dims a = .ok a := by
  have key : ∀ (ls : List String) (li : ℕ), li + ls.length ≤ a.shape.length → (∀ (i : ℕ) (l : String), ls[i]? = some l → dims[li + i]? = some l) →
      squeezeLoop a dims li ls a = .ok a := by
    intro ls
    induction ls with
    | nil => intro li _ _; rfl
    | cons l ls ih =>
      intro li hl hd
      have h0 : dims[li]? = some l := by simpa using hd 0 l rfl
      have hlt : li < a.shape.length := by simp at hl; omega
      simp only [squeezeLoop, List.getElem?_eq_getElem hlt, h0, ne_eq, not_true_eq_false, and_false, if_false]
      refine ih (li + 1) (by simp at hl; omega) ?_
      intro i l' hl'
      have := hd (i + 1) l' (by simpa using hl')
      rwa [show li + (i + 1) = li + 1 + i by omega] at this
  unfold kept
  split
  · exact key loopDims 0 (by simpa using hlen) (by simpa using h)
  · rfl

example : kept ["state"] ["state", "x"] (⟨[1, 5, 1], fun _ => 0⟩ : Arr ℕ) = .ok ⟨[1, 5, 1], fun _ => 0⟩ :=
  C43_own_axes_kept _ _ _ (by simp) (by intro i l h; cases i with | zero => simpa using h | succ i => simp at h)

/-- A slice `start:stop` picks, in increasing order, exactly the positions from `start` on and before `stop`, where negative numbers count from the end. -/
theorem C43_range_positions (a b : Option ℤ) (n : ℕ) : ∃ l, (Sel.range a b).idx n = .ok l ∧ l.Pairwise (· < ·) ∧
    ∀ j : ℕ, j ∈ l ↔ j < n ∧ (∀ k, a = some k → (if 0 ≤ k then k else n + k) ≤ j) ∧ (∀ k, b = some k → (j : ℤ) < (if 0 ≤ k then k else n + k)) := by
  refine ⟨_, rfl, ?_, ?_⟩
  · rw [List.pairwise_map]
    exact List.pairwise_lt_range.imp (fun h => by omega)
  · intro j
    have hmem : j ∈ (List.range (bound n n b - bound n 0 a)).map (· + bound n 0 a) ↔ bound n 0 a ≤ j ∧ j < bound n n b := by
      simp only [List.mem_map, List.mem_range]
      constructor
      · rintro ⟨x, hx, rfl⟩; omega
      · rintro ⟨h1, h2⟩; exact ⟨j - bound n 0 a, by omega, by omega⟩
    rw [hmem]
    cases a with
    | none =>
      cases b with
      | none => simp [bound]
      | some b =>
        simp only [bound, Nat.zero_le, true_and, reduceCtorEq, false_implies, implies_true, Option.some.injEq, forall_eq']
        split <;> omega
    | some a =>
      cases b with
      | none =>
        simp only [bound, reduceCtorEq, false_implies, implies_true, and_true, Option.some.injEq, forall_eq']
        split <;> omega
      | some b =>
        simp only [bound, Option.some.injEq, forall_eq']
        split <;> split <;> omega

lemma initLoop_dims (l : List (String × Entry V)) (d d' : Data V) (h : initLoop d l = .ok d') (hl : ∀ v e, (v, e) ∈ l → d.entries.lookup v = some e) :
    (∀ v e, d.entries.lookup v = some e → ∃ e', d'.entries.lookup v = some e' ∧ e'.dims = e.dims) ∧ (∀ v, d.entries.lookup v = none → d'.entries.lookup v = none) := by
  suffices H : ∀ (l : List (String × Entry V)) (d d' : Data V), initLoop d l = .ok d' →
      (∀ v e, (v, e) ∈ l → ∃ f, d.entries.lookup v = some f ∧ f.dims = e.dims) →
      (∀ v e, d.entries.lookup v = some e → ∃ e', d'.entries.lookup v = some e' ∧ e'.dims = e.dims) ∧ (∀ v, d.entries.lookup v = none → d'.entries.lookup v = none) from
    H l d d' h (fun v e hve => ⟨e, hl v e hve, rfl⟩)
  clear h hl l d d'
  intro l
  induction l with
  | nil => intro d d' h _; simp only [initLoop, Except.ok.injEq] at h; subst h; exact ⟨fun v e he => ⟨e, he, rfl⟩, fun v hv => hv⟩
  | cons p l ih =>
    obtain ⟨w, f⟩ := p
    intro d d' h hl
    obtain ⟨f0, hf0, hd0⟩ := hl w f (by simp)
    simp only [initLoop] at h
    cases hc : entryChecks d w f with
    | mk d1 o =>
      rw [hc] at h
      cases o with
      | some x => simp at h
      | none =>
        simp only at h
        have hd1 : (∀ v e, d.entries.lookup v = some e → ∃ e', d1.entries.lookup v = some e' ∧ e'.dims = e.dims) ∧ (∀ v, d.entries.lookup v = none → d1.entries.lookup v = none) := by
          unfold entryChecks at hc
          cases hfd : f.dims with
          | none => rw [hfd] at hc; simp only [Prod.mk.injEq, and_true] at hc; subst hc; exact ⟨fun v e he => ⟨e, he, rfl⟩, fun v hv => hv⟩
          | some ds =>
            rw [hfd] at hc
            simp only at hc
            split at hc
            · simp at hc
            · simp only [Prod.mk.injEq] at hc
              obtain ⟨rfl, _⟩ := hc
              refine ⟨?_, ?_⟩
              · intro v e he
                simp only [lookup_insertKey]
                by_cases hv : v = w
                · subst hv
                  rw [hf0] at he
                  simp only [Option.some.injEq] at he
                  subst he
                  exact ⟨_, if_pos rfl, by rw [hd0, hfd]⟩
                · exact ⟨e, by rw [if_neg hv]; exact he, rfl⟩
              · intro v hv
                simp only [lookup_insertKey]
                have : v ≠ w := by rintro rfl; rw [hf0] at hv; simp at hv
                rw [if_neg this]; exact hv
        obtain ⟨k1, k2⟩ := ih d1 d' h (fun v e hve => by
          obtain ⟨g, hg, hgd⟩ := hl v e (by simp [hve])
          obtain ⟨g', hg', hgd'⟩ := hd1.1 v g hg
          exact ⟨g', hg', hgd'.trans hgd⟩)
        refine ⟨?_, fun v hv => k2 v (hd1.2 v hv)⟩
        intro v e he
        obtain ⟨e1, he1, hde⟩ := hd1.1 v e he
        obtain ⟨e2, he2, hde2⟩ := k1 v e1 he1
        exact ⟨e2, he2, hde2.trans hde⟩

/-- Each dimension for which the user gave no entry has index coordinates `0, ..., size - 1`. -/
theorem C43_index_coordinates (coord : ℕ → V) (es : List (String × Entry V)) (ld : List String) (i0 : Option ℕ) (d : Data V) (hk : (es.map Prod.fst).Nodup)
    (h : create coord es ld i0 = .ok d) (v : String) (e : Entry V) (ds : List String) (c : String) (he : (v, e) ∈ es) (hds : e.dims = some ds) (hc : c ∈ ds)
    (hnew : es.lookup c = none) :
    ∃ f n, d.entries.lookup c = some f ∧ f.dims = some [c] ∧ f.arr.shape = [n] ∧ d.size c = some n ∧ ∀ i, f.arr.val [i] = coord i := by
  have hfit := create_fit coord es ld i0 d hk h
  unfold create at h
  cases hi : initLoop { entries := es, sizes := [], loopDims := ld, i0 := i0 } es with
  | error x => rw [hi] at h; simp at h
  | ok d1 =>
    rw [hi] at h
    simp only [Except.ok.injEq] at h
    subst h
    have hkeep := initLoop_dims es _ d1 hi (fun w f hf => lookup_of_mem es hk w f hf)
    obtain ⟨hk1, hk2⟩ := hkeep
    rw [autoUpdate_eq] at hfit ⊢
    obtain ⟨p1, p2, p3⟩ := coordFold_spec coord d1.sizes (dimNames d1.entries) d1.entries
    obtain ⟨e1, he1, hd1⟩ := hk1 v e (lookup_of_mem es hk v e he)
    have hcm : c ∈ dimNames d1.entries := by
      simp only [dimNames, List.mem_flatMap]
      exact ⟨(v, e1), mem_of_lookup _ _ _ he1, by simp [hd1, hds, hc]⟩
    obtain ⟨i, hi', hci⟩ := List.getElem_of_mem hc
    obtain ⟨n, m, q1, q2, q3⟩ := hfit v e1 (p1 v e1 he1) ds i c (hd1.trans hds) (by rw [List.getElem?_eq_getElem hi', hci])
    simp only at q2
    obtain ⟨f, hf⟩ := Option.isSome_iff_exists.1 (p3 c hcm m q2)
    rcases p2 c f hf with hf' | ⟨_, _, n', hn', rfl⟩
    · rw [hk2 c hnew] at hf'; simp at hf'
    · exact ⟨_, n', hf, rfl, rfl, hn', fun i => rfl⟩

end Foxes.Props.DataBox
