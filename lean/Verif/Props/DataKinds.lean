import Verif.Model.DataKinds
import Verif.Props.DataBox
/-
C82: farm data and target data.
-/
namespace Foxes.Props.DataKinds
open Foxes.DataBox Foxes.DataKinds Foxes.Props.DataBox

variable {V : Type}

/-- the container knows all sizes and all names that it knew before -/
structure Ext (d d' : Data V) : Prop where
  sizes : Grows d.sizes d'.sizes
  names : ∀ v, (d.entries.lookup v).isSome → (d'.entries.lookup v).isSome

lemma Ext.refl (d : Data V) : Ext d d := ⟨Grows.refl _, fun _ h => h⟩
lemma Ext.trans {a b c : Data V} (h : Ext a b) (g : Ext b c) : Ext a c := ⟨h.sizes.trans g.sizes, fun v hv => g.names v (h.names v hv)⟩

lemma Ext.size {d d' : Data V} (h : Ext d d') {c : String} (hc : (d.sizes.lookup c).isSome) : (d'.sizes.lookup c).isSome := by
  obtain ⟨m, hm⟩ := Option.isSome_iff_exists.1 hc
  obtain ⟨m', hm', _⟩ := h.sizes c m hm
  rw [hm']; rfl

lemma checks_ok {k : Kind} {d0 d : Data V} {v : String} {e : Entry V} (h : checks k d0 v e = (d, none)) : entryChecks d0 v e = (d, none) ∧ extra k d v = none := by
  unfold checks at h
  cases hc : entryChecks d0 v e with
  | mk d1 o =>
    rw [hc] at h
    cases o with
    | some x => simp at h
    | none =>
      simp only [Prod.mk.injEq] at h
      obtain ⟨rfl, h2⟩ := h
      exact ⟨rfl, h2⟩

lemma checks_ext {k : Kind} {d0 d : Data V} {v : String} {e : Entry V} (hv : d0.entries.lookup v = some e) (h : checks k d0 v e = (d, none)) : Ext d0 d := by
  obtain ⟨hc, _⟩ := checks_ok h
  obtain ⟨g, _, _, h1, h2, h3⟩ := entryChecks_spec _ _ _ _ hc
  refine ⟨g, fun w hw => ?_⟩
  by_cases hwv : w = v
  · subst hwv
    by_cases hd : e.dims = none
    · rw [h2 hd]; exact hw
    · obtain ⟨e', he', _⟩ := h3 hd
      rw [he']; rfl
  · rw [h1 w hwv]; exact hw

lemma autoUpdate_ext (coord : ℕ → V) (d : Data V) : Ext d (autoUpdate coord d) := by
  refine ⟨Grows.refl _, fun v hv => ?_⟩
  obtain ⟨e, he⟩ := Option.isSome_iff_exists.1 hv
  rw [autoUpdate_eq]
  rw [(coordFold_spec coord d.sizes (dimNames d.entries) d.entries).1 v e he]; rfl

/-- the combination adds one entry at most -/
lemma combine_spec {d d1 : Data V} (h : combine d = .ok d1) :
    d1 = d ∨ ∃ x y z ds, d.entries.lookup "txyh" = none ∧ d.entries.lookup "X" = some x ∧ d.entries.lookup "Y" = some y ∧ d.entries.lookup "H" = some z ∧
      x.dims = some ds ∧ y.dims = some ds ∧ z.dims = some ds ∧ x.arr.shape = y.arr.shape ∧ x.arr.shape = z.arr.shape ∧
      d1 = { d with entries := insertKey "txyh" ⟨stackArr x.arr y.arr z.arr, some (ds ++ ["xyh"])⟩ d.entries } := by
  unfold combine at h
  cases h0 : d.entries.lookup "txyh" with
  | some t => rw [h0] at h; simp at h; exact Or.inl h.symm
  | none =>
    rw [h0] at h
    cases hx : d.entries.lookup "X" with
    | none => rw [hx] at h; simp at h; exact Or.inl h.symm
    | some x =>
      rw [hx] at h
      cases hy : d.entries.lookup "Y" with
      | none => rw [hy] at h; simp at h; exact Or.inl h.symm
      | some y =>
        rw [hy] at h
        cases hz : d.entries.lookup "H" with
        | none => rw [hz] at h; simp at h; exact Or.inl h.symm
        | some z =>
          rw [hz] at h
          simp only at h
          by_cases hd : x.dims = y.dims ∧ x.dims = z.dims
          · rw [if_pos hd] at h
            by_cases hs : x.arr.shape = y.arr.shape ∧ x.arr.shape = z.arr.shape
            · rw [if_pos hs] at h
              cases hxd : x.dims with
              | none => rw [hxd] at h; simp at h
              | some ds =>
                rw [hxd] at h
                simp only [Except.ok.injEq] at h
                exact Or.inr ⟨x, y, z, ds, rfl, rfl, rfl, rfl, hxd, by rw [← hd.1, hxd], by rw [← hd.2, hxd], hs.1, hs.2, h.symm⟩
            · rw [if_neg hs] at h; simp at h
          · rw [if_neg hd] at h
            simp at h; exact Or.inl h.symm

lemma combine_ext {d d1 : Data V} (h : combine d = .ok d1) : Ext d d1 := by
  rcases combine_spec h with rfl | ⟨x, y, z, ds, _, _, _, _, _, _, _, _, _, rfl⟩
  · exact Ext.refl _
  · refine ⟨Grows.refl _, fun v hv => ?_⟩
    simp only [lookup_insertKey]
    split
    · rfl
    · exact hv

/-- A property of entries that the checks of a class establish. -/
structure Law (k : Kind) (P : Data V → String → Entry V → Prop) : Prop where
  mono : ∀ {d d' v e}, Ext d d' → P d v e → P d' v e
  check : ∀ {d0 d : Data V} {v e0 e}, d0.entries.lookup v = some e0 → checks k d0 v e0 = (d, none) → d.entries.lookup v = some e → P d v e
  stack : ∀ {d : Data V} {x : Entry V} {ds a}, P d "X" x → x.dims = some ds → a.shape = x.arr.shape ++ [3] → P d "txyh" ⟨a, some (ds ++ ["xyh"])⟩
  coord : ∀ {d d' : Data V} {w f c n val ds}, Ext d d' → final k d' = none → d'.entries ≠ [] → d.entries.lookup w = some f → P d w f → f.dims = some ds → c ∈ ds →
    d.entries.lookup c = none → d.sizes.lookup c = some n → P d' c ⟨⟨[n], val⟩, some [c]⟩

/-- all entries have the property -/
def All (P : Data V → String → Entry V → Prop) (d : Data V) : Prop := ∀ v e, d.entries.lookup v = some e → P d v e

lemma update_all {k : Kind} {P : Data V → String → Entry V → Prop} (L : Law k P) (coord : ℕ → V) {d d' : Data V} (hnd : ∀ w f, (w, f) ∈ d.entries → d.entries.lookup w = some f)
    (h : update k coord d = (d', none)) (hd : All P d) : All P d' := by
  unfold update at h
  cases hc : combine d with
  | error x => rw [hc] at h; simp at h
  | ok d1 =>
    rw [hc] at h
    simp only [Prod.mk.injEq] at h
    obtain ⟨rfl, hfin⟩ := h
    have hd1 : All P d1 := by
      have hext := combine_ext hc
      rcases combine_spec hc with rfl | ⟨x, y, z, ds, _, hx, _, _, hxd, _, _, _, _, rfl⟩
      · exact hd
      · intro v e he
        simp only [lookup_insertKey] at he
        by_cases hv : v = "txyh"
        · rw [if_pos hv] at he
          simp only [Option.some.injEq] at he
          subst he; subst hv
          exact L.stack (L.mono hext (hd "X" x hx)) hxd rfl
        · rw [if_neg hv] at he
          exact L.mono hext (hd v e he)
    have hnd1 : ∀ w f, (w, f) ∈ d1.entries → ∃ f', d1.entries.lookup w = some f' ∧ f'.dims = f.dims := by
      rcases combine_spec hc with rfl | ⟨x, y, z, ds, h0, hx, _, _, hxd, _, _, _, _, rfl⟩
      · exact fun w f hw => ⟨f, hnd w f hw, rfl⟩
      · intro w f hw
        have key : ∀ (l : List (String × Entry V)) (e : Entry V), l.lookup "txyh" = none → (w, f) ∈ insertKey "txyh" e l → (w, f) = ("txyh", e) ∨ (w, f) ∈ l := by
          intro l e
          induction l with
          | nil => intro _ hm; left; simpa [insertKey] using hm
          | cons p l ih =>
            obtain ⟨a, b⟩ := p
            intro hl hm
            have ha : a ≠ "txyh" := by rintro rfl; simp at hl
            simp only [insertKey, if_neg ha, List.mem_cons] at hm
            rcases hm with hm | hm
            · right; rw [hm]; exact List.mem_cons_self
            · have : l.lookup "txyh" = none := by
                simpa only [List.lookup, beq_eq_false_iff_ne.2 (Ne.symm ha)] using hl
              rcases ih this hm with h | h
              · exact Or.inl h
              · exact Or.inr (List.mem_cons_of_mem _ h)
        rcases key _ _ h0 hw with h | h
        · obtain ⟨rfl, rfl⟩ := Prod.mk.inj h
          exact ⟨_, by simp only [lookup_insertKey, if_true], rfl⟩
        · have := hnd w f h
          refine ⟨f, ?_, rfl⟩
          simp only [lookup_insertKey]
          have hw' : w ≠ "txyh" := by rintro rfl; rw [h0] at this; simp at this
          rw [if_neg hw']; exact this
    have hext := autoUpdate_ext coord d1
    intro v e he
    have he' := he
    rw [autoUpdate_eq] at he
    obtain ⟨_, p2, _⟩ := coordFold_spec coord d1.sizes (dimNames d1.entries) d1.entries
    rcases p2 v e he with h | ⟨hno, hm, n, hn, rfl⟩
    · exact L.mono hext (hd1 v e h)
    · simp only [dimNames, List.mem_flatMap] at hm
      obtain ⟨⟨w, f⟩, hw, hcw⟩ := hm
      obtain ⟨f', hf', hdim⟩ := hnd1 w f hw
      cases hfd : f.dims with
      | none => simp [hfd] at hcw
      | some ds =>
        refine L.coord (f := f') hext hfin ?_ hf' (hd1 w f' hf') (hdim.trans hfd) (by simpa [hfd] using hcw) hno hn
        intro hnil
        rw [hnil] at he'
        simp at he'

lemma mem_keys_insertKey {α : Type} (k : String) (x : α) (l : List (String × α)) (a : String) (h : a ∈ (insertKey k x l).map Prod.fst) : a = k ∨ a ∈ l.map Prod.fst := by
  induction l with
  | nil => left; simpa [insertKey] using h
  | cons p l ih =>
    obtain ⟨b, y⟩ := p
    simp only [insertKey] at h
    by_cases hb : b = k
    · rw [if_pos hb] at h
      simp only [List.map_cons, List.mem_cons] at h
      rcases h with h | h
      · exact Or.inl h
      · exact Or.inr (by simp only [List.map_cons, List.mem_cons]; exact Or.inr h)
    · rw [if_neg hb] at h
      simp only [List.map_cons, List.mem_cons] at h ⊢
      rcases h with h | h
      · exact Or.inr (Or.inl h)
      · rcases ih h with h | h
        · exact Or.inl h
        · exact Or.inr (Or.inr h)

lemma nodup_insertKey {α : Type} (k : String) (x : α) (l : List (String × α)) (h : (l.map Prod.fst).Nodup) : ((insertKey k x l).map Prod.fst).Nodup := by
  induction l with
  | nil => simp [insertKey]
  | cons p l ih =>
    obtain ⟨b, y⟩ := p
    simp only [List.map_cons, List.nodup_cons] at h
    simp only [insertKey]
    by_cases hb : b = k
    · rw [if_pos hb]
      subst hb
      simpa using h
    · rw [if_neg hb]
      simp only [List.map_cons, List.nodup_cons]
      refine ⟨fun hm => ?_, ih h.2⟩
      rcases mem_keys_insertKey k x l b hm with h' | h'
      · exact hb h'
      · exact h.1 h'

/-- names are unique -/
def Keys (d : Data V) : Prop := (d.entries.map Prod.fst).Nodup

lemma entryChecks_keys {d d' : Data V} {v : String} {e : Entry V} (h : entryChecks d v e = (d', none)) (hd : Keys d) : Keys d' := by
  unfold entryChecks at h
  cases hdm : e.dims with
  | none => simp only [hdm, Prod.mk.injEq, and_true] at h; subst h; exact hd
  | some ds =>
    simp only [hdm] at h
    cases hk : kept d.loopDims ds e.arr with
    | error x => rw [hk] at h; simp at h
    | ok a =>
      rw [hk] at h
      simp only [Prod.mk.injEq] at h
      rw [← h.1]
      exact nodup_insertKey _ _ _ hd

lemma update_keys {k : Kind} {coord : ℕ → V} {d d' : Data V} (h : update k coord d = (d', none)) (hd : Keys d) : Keys d' := by
  unfold update at h
  cases hc : combine d with
  | error x => rw [hc] at h; simp at h
  | ok d1 =>
    rw [hc] at h
    simp only [Prod.mk.injEq] at h
    rw [← h.1]
    have h1 : Keys d1 := by
      rcases combine_spec hc with rfl | ⟨x, y, z, ds, _, _, _, _, _, _, _, _, _, rfl⟩
      · exact hd
      · exact nodup_insertKey _ _ _ hd
    rw [autoUpdate_eq]
    unfold Keys at h1 ⊢
    simp only
    generalize dimNames d1.entries = cs
    generalize d1.entries = es at h1
    induction cs generalizing es with
    | nil => exact h1
    | cons c cs ih =>
      rw [List.foldl_cons]
      apply ih
      unfold coordStep
      split
      · exact h1
      · split
        · exact h1
        · exact nodup_insertKey _ _ _ h1

lemma initLoopK_all {k : Kind} {P : Data V → String → Entry V → Prop} (L : Law k P) (l : List (String × Entry V)) (d d' : Data V) (h : initLoopK k d l = .ok d') (hnd : (l.map Prod.fst).Nodup)
    (hl : ∀ v e, (v, e) ∈ l → d.entries.lookup v = some e) :
    Ext d d' ∧ (Keys d → Keys d') ∧ ∀ v e, d'.entries.lookup v = some e → P d' v e ∨ (v ∉ l.map Prod.fst ∧ d.entries.lookup v = some e) := by
  induction l generalizing d with
  | nil =>
    simp [initLoopK] at h; subst h
    exact ⟨Ext.refl _, id, fun v e he => Or.inr ⟨by simp, he⟩⟩
  | cons p l ih =>
    obtain ⟨w, f⟩ := p
    simp only [initLoopK] at h
    cases hec : checks k d w f with
    | mk d1 o =>
      rw [hec] at h
      cases o with
      | some x => simp at h
      | none =>
        simp only at h
        have hw := hl w f List.mem_cons_self
        have hext := checks_ext hw hec
        obtain ⟨hc0, _⟩ := checks_ok hec
        obtain ⟨g1, i1, l1, h1, h2, h3⟩ := entryChecks_spec d d1 w f hc0
        simp only [List.map_cons, List.nodup_cons] at hnd
        obtain ⟨g2, k2, h4⟩ := ih d1 h hnd.2 (by
          intro v e hve
          have hvw : v ≠ w := by
            rintro rfl
            exact hnd.1 (List.mem_map.2 ⟨(v, e), hve, rfl⟩)
          rw [h1 v hvw]
          exact hl v e (by simp [hve]))
        refine ⟨hext.trans g2, fun hk => k2 (entryChecks_keys hc0 hk), ?_⟩
        intro v e he
        rcases h4 v e he with hF | ⟨hnot, hv1⟩
        · exact Or.inl hF
        · by_cases hvw : v = w
          · subst hvw
            exact Or.inl (L.mono g2 (L.check hw hec hv1))
          · right
            refine ⟨?_, by rw [← h1 v hvw]; exact hv1⟩
            simp only [List.map_cons, List.mem_cons, not_or]
            exact ⟨hvw, hnot⟩

lemma create_all {k : Kind} {P : Data V → String → Entry V → Prop} (L : Law k P) (coord : ℕ → V) (es : List (String × Entry V)) (ld : List String) (i0 : Option ℕ) (d : Data V)
    (hnd : (es.map Prod.fst).Nodup) (h : createK k coord es ld i0 = .ok d) : All P d ∧ Keys d := by
  unfold createK at h
  cases hi : initLoopK k { entries := es, sizes := [], loopDims := ld, i0 := i0 } es with
  | error x => rw [hi] at h; simp at h
  | ok d1 =>
    rw [hi] at h
    simp only at h
    obtain ⟨_, hk, hf⟩ := initLoopK_all L es _ d1 hi hnd (fun v e hve => lookup_of_mem es hnd v e hve)
    have hkeys : Keys d1 := hk hnd
    cases hu : update k coord d1 with
    | mk d2 o =>
      rw [hu] at h
      cases o with
      | some x => simp at h
      | none =>
        simp only [Except.ok.injEq] at h
        subst h
        refine ⟨update_all L coord (fun w f hw => lookup_of_mem _ hkeys w f hw) hu ?_, update_keys hu hkeys⟩
        intro v e he
        rcases hf v e he with hF | ⟨hv, hes⟩
        · exact hF
        · exact absurd (List.mem_map.2 ⟨(v, e), mem_of_lookup _ _ _ hes, rfl⟩) hv

lemma add_all {k : Kind} {P : Data V → String → Entry V → Prop} (L : Law k P) (coord : ℕ → V) (d d' : Data V) (v : String) (e : Entry V) (h : addK k coord d v e = (d', none)) (hd : All P d) (hk : Keys d) :
    All P d' ∧ Keys d' := by
  unfold addK at h
  cases hec : checks k { d with entries := insertKey v e d.entries } v e with
  | mk d2 o =>
    rw [hec] at h
    cases o with
    | some x => simp at h
    | none =>
      simp only at h
      have hv0 : ({ d with entries := insertKey v e d.entries } : Data V).entries.lookup v = some e := by simp [lookup_insertKey]
      have hext := checks_ext hv0 hec
      obtain ⟨hc0, _⟩ := checks_ok hec
      obtain ⟨_, _, _, h1, _, _⟩ := entryChecks_spec _ _ _ _ hc0
      have hext0 : Ext d { d with entries := insertKey v e d.entries } := by
        refine ⟨Grows.refl _, fun w hw => ?_⟩
        simp only [lookup_insertKey]
        split
        · rfl
        · exact hw
      have hk2 : Keys d2 := entryChecks_keys hc0 (nodup_insertKey _ _ _ hk)
      refine ⟨update_all L coord (fun w f hw => lookup_of_mem _ hk2 w f hw) h ?_, update_keys h hk2⟩
      intro w f hf
      by_cases hw : w = v
      · subst hw
        exact L.check hv0 hec hf
      · rw [h1 w hw] at hf
        simp only [lookup_insertKey, if_neg hw] at hf
        exact L.mono (hext0.trans hext) (hd w f hf)

/-- A container that was created, filled and sliced without an exception: any history. -/
inductive Built (k : Kind) (coord : ℕ → V) : Data V → Prop
  | create {es ld i0 d} : (es.map Prod.fst).Nodup → createK k coord es ld i0 = .ok d → Built k coord d
  | add {d v e d'} : Built k coord d → addK k coord d v e = (d', none) → Built k coord d'
  | slice {d dim s d'} : Built k coord d → getSliceK k coord d dim s = .ok d' → Built k coord d'

lemma sliceEntries_names (dim : String) (s : Sel) (es r : List (String × Entry V)) (h : sliceEntries dim s es = .ok r) : (r.map Prod.fst).Sublist (es.map Prod.fst) := by
  induction es generalizing r with
  | nil => simp [sliceEntries] at h; subst h; simp
  | cons p es ih =>
    obtain ⟨v, e⟩ := p
    simp only [sliceEntries] at h
    cases hd : e.dims with
    | none =>
      rw [hd] at h
      exact (ih r h).cons _
    | some ds =>
      rw [hd] at h
      simp only at h
      split at h
      · rename_i sel r' h1 h2
        simp only [Except.ok.injEq] at h
        subst h
        exact (ih r' h2).cons_cons _
      · simp at h
      · simp at h

lemma slice_create {k : Kind} {coord : ℕ → V} {d d' : Data V} {dim : String} {s : Sel} (h : getSliceK k coord d dim s = .ok d') :
    ∃ es i0, sliceEntries dim s d.entries = .ok es ∧ createK k coord es d.loopDims i0 = .ok d' := by
  unfold getSliceK at h
  cases hs : sliceEntries dim s d.entries with
  | error x => rw [hs] at h; simp at h
  | ok es =>
    rw [hs] at h
    simp only at h
    cases hi : sliceI0 d dim s with
    | error x => rw [hi] at h; simp at h
    | ok i0 =>
      rw [hi] at h
      exact ⟨es, i0, rfl, h⟩

lemma built_all {k : Kind} {P : Data V → String → Entry V → Prop} (L : Law k P) (coord : ℕ → V) (d : Data V) (h : Built k coord d) : All P d ∧ Keys d := by
  induction h with
  | create hnd hc => exact create_all L coord _ _ _ _ hnd hc
  | add _ ha ih => exact add_all L coord _ _ _ _ ha ih.1 ih.2
  | slice _ hs ih =>
    obtain ⟨es, i0, h1, h2⟩ := slice_create hs
    exact create_all L coord _ _ _ _ (ih.2.sublist (sliceEntries_names _ _ _ _ h1)) h2

/-! ## Sizes -/

/-- sizes as in the table, or one; the last axis of the combined positions is not in the table -/
def FitX (d : Data V) (v : String) (e : Entry V) : Prop :=
  ∀ (ds : List String) (i : ℕ) (c : String), e.dims = some ds → ds[i]? = some c → (v = "txyh" ∧ c = "xyh" ∧ i + 1 = ds.length) ∨
    ∃ n m, e.arr.shape[i]? = some n ∧ d.sizes.lookup c = some m ∧ (n = m ∨ n = 1)

lemma fitLaw (k : Kind) : Law k (FitX (V := V)) where
  mono := by
    intro d d' v e hx h ds i c hd hc
    rcases h ds i c hd hc with h | ⟨n, m, h1, h2, h3⟩
    · exact Or.inl h
    · obtain ⟨m', h4, h5⟩ := hx.sizes c m h2
      refine Or.inr ⟨n, m', h1, h4, ?_⟩
      rcases h3 with rfl | rfl
      · rcases h5 with rfl | rfl
        · exact Or.inl rfl
        · exact Or.inr rfl
      · exact Or.inr rfl
  check := by
    intro d0 d v e0 e h0 hc he ds i c hd hci
    obtain ⟨hc0, _⟩ := checks_ok hc
    obtain ⟨_, _, _, _, h2, h3⟩ := entryChecks_spec _ _ _ _ hc0
    by_cases hn : e0.dims = none
    · have := h2 hn
      subst this
      rw [h0] at he
      simp only [Option.some.injEq] at he
      subst he
      rw [hn] at hd; simp at hd
    · obtain ⟨e', he', _, hF⟩ := h3 hn
      rw [he] at he'
      simp only [Option.some.injEq] at he'
      subst he'
      exact Or.inr (hF ds i c hd hci)
  stack := by
    intro d x ds a hx hd hs ds' i c hds hc
    simp only [Option.some.injEq] at hds
    subst hds
    have hlen : x.arr.shape.length ≥ ds.length := by
      by_contra hlt
      have hlt' : x.arr.shape.length < ds.length := by omega
      rcases hx ds x.arr.shape.length ds[x.arr.shape.length] hd (List.getElem?_eq_getElem hlt') with ⟨h, _⟩ | ⟨n, m, h1, _⟩
      · exact absurd h (by decide)
      · simp at h1
    rcases Nat.lt_or_ge i ds.length with hi | hi
    · rw [List.getElem?_append_left hi] at hc
      rcases hx ds i c hd hc with ⟨h, _⟩ | ⟨n, m, h1, h2, h3⟩
      · exact absurd h (by decide)
      · refine Or.inr ⟨n, m, ?_, h2, h3⟩
        simp only [hs]
        rw [List.getElem?_append_left (by omega)]; exact h1
    · have hi' : i = ds.length := by
        have := (List.getElem?_eq_some_iff.1 hc).1
        simp at this; omega
      subst hi'
      simp at hc
      exact Or.inl ⟨rfl, hc.symm, by simp⟩
  coord := by
    intro d d' w f c n val ds hx _ _ _ _ _ _ _ hn ds' i c' hds hc
    simp only [Option.some.injEq] at hds
    subst hds
    obtain ⟨m', h4, h5⟩ := hx.sizes c n hn
    cases i with
    | zero =>
      simp only [List.getElem?_cons_zero, Option.some.injEq] at hc
      subst hc
      exact Or.inr ⟨n, m', rfl, h4, by rcases h5 with h | h <;> simp [h]⟩
    | succ i => simp at hc


/-! ## Farm data -/

/-- the form of an entry of farm data: states, then turbines; names of dimensions, the turbine names and the weights are excepted -/
def FarmForm (d : Data V) (v : String) (e : Entry V) : Prop :=
  (d.sizes.lookup v).isSome ∨ v = "tname" ∨ v = "weight" ∨ (v = "txyh" ∧ (d.sizes.lookup "X").isSome) ∨
    (2 ≤ e.arr.shape.length ∧ ∃ ds, e.dims = some ds ∧ ds.take 2 = ["state", "turbine"])

lemma take_append_of_take {α : Type} (n : ℕ) (l m p : List α) (h : l.take n = p) (hp : p.length = n) : (l ++ m).take n = p := by
  have : n ≤ l.length := by
    have := congrArg List.length h
    simp at this; omega
  rw [List.take_append_of_le_length this, h]

lemma farmLaw : Law .farm (FarmForm (V := V)) where
  mono := by
    intro d d' v e hx h
    rcases h with h | h | h | ⟨h1, h2⟩ | h
    · exact Or.inl (hx.size h)
    · exact Or.inr (Or.inl h)
    · exact Or.inr (Or.inr (Or.inl h))
    · exact Or.inr (Or.inr (Or.inr (Or.inl ⟨h1, hx.size h2⟩)))
    · exact Or.inr (Or.inr (Or.inr (Or.inr h)))
  check := by
    intro d0 d v e0 e h0 hc he
    obtain ⟨_, hx⟩ := checks_ok hc
    simp only [extra, farmCheck, he] at hx
    by_cases hs : (d.sizes.lookup v).isSome ∨ v = "tname" ∨ v = "weight"
    · rcases hs with h | h | h
      · exact Or.inl h
      · exact Or.inr (Or.inl h)
      · exact Or.inr (Or.inr (Or.inl h))
    · rw [if_neg hs] at hx
      by_cases hl : e.arr.shape.length < 2
      · rw [if_pos hl] at hx; simp at hx
      · rw [if_neg hl] at hx
        cases hd : e.dims with
        | none => rw [hd] at hx; simp at hx
        | some ds =>
          rw [hd] at hx
          simp only at hx
          by_cases ht : ds.take 2 ≠ ["state", "turbine"]
          · rw [if_pos ht] at hx; simp at hx
          · exact Or.inr (Or.inr (Or.inr (Or.inr ⟨by omega, ds, hd, not_not.1 ht⟩)))
  stack := by
    intro d x ds a hx hd hs
    rcases hx with h | h | h | ⟨h1, h2⟩ | ⟨h1, ds', h2, h3⟩
    · exact Or.inr (Or.inr (Or.inr (Or.inl ⟨rfl, h⟩)))
    · exact absurd h (by decide)
    · exact absurd h (by decide)
    · exact absurd h1 (by decide)
    · rw [hd] at h2
      simp only [Option.some.injEq] at h2
      subst h2
      refine Or.inr (Or.inr (Or.inr (Or.inr ⟨by simp [hs]; omega, _, rfl, take_append_of_take 2 _ _ _ h3 rfl⟩)))
  coord := by
    intro d d' w f c n val ds hx _ _ _ _ _ _ _ hn
    exact Or.inl (hx.size (by rw [hn]; rfl))

/-- what is left at the end of a successful call -/
lemma update_final {k : Kind} {coord : ℕ → V} {d d' : Data V} (h : update k coord d = (d', none)) : final k d' = none := by
  unfold update at h
  cases hc : combine d with
  | error x => rw [hc] at h; simp at h
  | ok d1 =>
    rw [hc] at h
    simp only [Prod.mk.injEq] at h
    rw [← h.1]; exact h.2

lemma create_final {k : Kind} {coord : ℕ → V} {es : List (String × Entry V)} {ld : List String} {i0 : Option ℕ} {d : Data V} (h : createK k coord es ld i0 = .ok d) : final k d = none := by
  unfold createK at h
  cases hi : initLoopK k { entries := es, sizes := [], loopDims := ld, i0 := i0 } es with
  | error x => rw [hi] at h; simp at h
  | ok d1 =>
    rw [hi] at h
    simp only at h
    cases hu : update k coord d1 with
    | mk d2 o =>
      rw [hu] at h
      cases o with
      | some x => simp at h
      | none =>
        simp only [Except.ok.injEq] at h
        subst h
        exact update_final hu

lemma built_final {k : Kind} {coord : ℕ → V} {d : Data V} (h : Built k coord d) : final k d = none := by
  cases h with
  | create hnd hc => exact create_final hc
  | @add d0 v e _ _ ha =>
    unfold addK at ha
    cases hec : checks k { d0 with entries := insertKey v e d0.entries } v e with
    | mk d2 o =>
      rw [hec] at ha
      cases o with
      | some x => simp at ha
      | none => exact update_final ha
  | slice _ hs =>
    obtain ⟨es, i0, h1, h2⟩ := slice_create hs
    exact create_final h2

/-- **C82 (farm data).** After any sequence of successful constructions, additions and slices, farm data that is not empty has numbers of states and turbines; the first two axes of each entry are
states and turbines with these sizes (or size one). Excepted are entries named after dimensions, turbine names and weights. -/
theorem C82_farm (coord : ℕ → V) (d : Data V) (h : Built .farm coord d) (hX : d.size "X" = none) (v : String) (e : Entry V) (he : d.entries.lookup v = some e) :
    ∃ ns nt, d.size "state" = some ns ∧ d.size "turbine" = some nt ∧
      (d.size v = none → v ≠ "tname" → v ≠ "weight" → ∃ ds n m rest, e.dims = some ("state" :: "turbine" :: ds) ∧ e.arr.shape = n :: m :: rest ∧ (n = ns ∨ n = 1) ∧ (m = nt ∨ m = 1)) := by
  have hf := built_final h
  obtain ⟨hfit, _⟩ := built_all (fitLaw .farm) coord d h
  obtain ⟨hform, _⟩ := built_all farmLaw coord d h
  have hne : d.entries.isEmpty = false := by
    cases hd : d.entries with
    | nil => rw [hd] at he; simp at he
    | cons a l => rfl
  simp only [final, hne, Bool.false_eq_true, if_false] at hf
  split at hf
  · rename_i hall
    simp only [List.all_cons, List.all_nil, Bool.and_true, Bool.and_eq_true] at hall
    obtain ⟨ns, hns⟩ := Option.isSome_iff_exists.1 hall.1
    obtain ⟨nt, hnt⟩ := Option.isSome_iff_exists.1 hall.2
    refine ⟨ns, nt, hns, hnt, fun hv h1 h2 => ?_⟩
    rcases hform v e he with h | h | h | ⟨_, h⟩ | ⟨hlen, ds, hds, htk⟩
    · simp only [Data.size] at hv; rw [hv] at h; simp at h
    · exact absurd h h1
    · exact absurd h h2
    · simp only [Data.size] at hX; rw [hX] at h; simp at h
    · obtain ⟨ds', rfl⟩ : ∃ ds', ds = "state" :: "turbine" :: ds' := by
        refine ⟨ds.drop 2, ?_⟩
        conv_lhs => rw [← List.take_append_drop 2 ds, htk]
        rfl
      cases hsh : e.arr.shape with
      | nil => rw [hsh] at hlen; simp at hlen
      | cons n r =>
        cases r with
        | nil => rw [hsh] at hlen; simp at hlen
        | cons m rest =>
          refine ⟨ds', n, m, rest, hds, rfl, ?_, ?_⟩
          · rcases hfit v e he _ 0 "state" hds rfl with ⟨_, hc, _⟩ | ⟨n', m', a, b, c⟩
            · exact absurd hc (by decide)
            · rw [hsh] at a
              simp only [List.getElem?_cons_zero, Option.some.injEq] at a
              rw [hns] at b
              simp only [Option.some.injEq] at b
              subst a; subst b; exact c
          · rcases hfit v e he _ 1 "turbine" hds rfl with ⟨_, hc, _⟩ | ⟨n', m', a, b, c⟩
            · exact absurd hc (by decide)
            · rw [hsh] at a
              simp only [List.getElem?_cons_succ, List.getElem?_cons_zero, Option.some.injEq] at a
              rw [hnt] at b
              simp only [Option.some.injEq] at b
              subst a; subst b; exact c
  · simp at hf

/-! ## Target data -/

/-- both target points and their weights are there -/
def Both (d : Data V) : Prop := (d.entries.lookup "targets").isSome ∧ (d.entries.lookup "tpoint_weights").isSome

/-- the form of an entry of target data -/
def TargetForm (d : Data V) (v : String) (e : Entry V) : Prop :=
  (v = "targets" ∧ e.dims = some targetDims ∧ ∃ a b c, e.arr.shape = [a, b, c, 3]) ∨
  (v = "tpoint_weights" ∧ e.dims = some ["target_point"] ∧ ∃ n, e.arr.shape = [n]) ∨
  (v ≠ "targets" ∧ v ≠ "tpoint_weights" ∧ Both d ∧ ((d.sizes.lookup v).isSome ∨ (v = "txyh" ∧ (d.sizes.lookup "X").isSome) ∨
    (3 ≤ e.arr.shape.length ∧ ∃ ds, e.dims = some ds ∧ ds.take 3 = ["state", "target", "target_point"])))

lemma final_both {d : Data V} (h : final .target d = none) (hne : d.entries ≠ []) :
    Both d ∧ (d.sizes.lookup "state").isSome ∧ (d.sizes.lookup "target").isSome ∧ (d.sizes.lookup "target_point").isSome := by
  have hne' : d.entries.isEmpty = false := by
    cases hd : d.entries with
    | nil => exact absurd hd hne
    | cons a l => rfl
  simp only [final, hne', Bool.false_eq_true, if_false] at h
  split at h
  · rename_i h1
    split at h
    · rename_i h2
      simp only [List.all_cons, List.all_nil, Bool.and_true, Bool.and_eq_true] at h1 h2
      exact ⟨h1, h2.1, h2.2.1, h2.2.2⟩
    · simp at h
  · simp at h

lemma targetLaw : Law .target (TargetForm (V := V)) where
  mono := by
    intro d d' v e hx h
    rcases h with h | h | ⟨h1, h2, h3, h4⟩
    · exact Or.inl h
    · exact Or.inr (Or.inl h)
    · refine Or.inr (Or.inr ⟨h1, h2, ⟨hx.names _ h3.1, hx.names _ h3.2⟩, ?_⟩)
      rcases h4 with h | ⟨ha, hb⟩ | h
      · exact Or.inl (hx.size h)
      · exact Or.inr (Or.inl ⟨ha, hx.size hb⟩)
      · exact Or.inr (Or.inr h)
  check := by
    intro d0 d v e0 e h0 hc he
    obtain ⟨_, hx⟩ := checks_ok hc
    simp only [extra, targetCheck, he] at hx
    by_cases h1 : v = "targets"
    · rw [if_pos h1] at hx
      split at hx
      · rename_i nt np _ _
        by_cases hd : e.dims ≠ some targetDims
        · rw [if_pos hd] at hx; simp at hx
        · rw [if_neg hd] at hx
          by_cases hs : e.arr.shape.map some ≠ [d.sizes.lookup "state", some nt, some np, some 3]
          · rw [if_pos hs] at hx; simp at hx
          · refine Or.inl ⟨h1, not_not.1 hd, ?_⟩
            have hs' := not_not.1 hs
            have hlen : e.arr.shape.length = 4 := by simpa using congrArg List.length hs'
            obtain ⟨a, b, c, x, hsh⟩ := List.length_eq_four.1 hlen
            rw [hsh] at hs'
            simp only [List.map_cons, List.map_nil, List.cons.injEq, Option.some.injEq, and_true] at hs'
            exact ⟨a, b, c, by rw [hsh, hs'.2.2.2]⟩
      · simp at hx
    · rw [if_neg h1] at hx
      by_cases h2 : v = "tpoint_weights"
      · rw [if_pos h2] at hx
        split at hx
        · rename_i np _
          by_cases hd : e.dims ≠ some ["target_point"]
          · rw [if_pos hd] at hx; simp at hx
          · rw [if_neg hd] at hx
            by_cases hs : e.arr.shape ≠ [np]
            · rw [if_pos hs] at hx; simp at hx
            · exact Or.inr (Or.inl ⟨h2, not_not.1 hd, np, not_not.1 hs⟩)
        · simp at hx
      · rw [if_neg h2] at hx
        by_cases h3 : (d.entries.lookup "targets").isNone
        · rw [if_pos h3] at hx; simp at hx
        · rw [if_neg h3] at hx
          by_cases h4 : (d.entries.lookup "tpoint_weights").isNone
          · rw [if_pos h4] at hx; simp at hx
          · rw [if_neg h4] at hx
            refine Or.inr (Or.inr ⟨h1, h2, ⟨?_, ?_⟩, ?_⟩)
            · cases hq : d.entries.lookup "targets" with
              | none => rw [hq] at h3; simp at h3
              | some _ => rfl
            · cases hq : d.entries.lookup "tpoint_weights" with
              | none => rw [hq] at h4; simp at h4
              | some _ => rfl
            by_cases h5 : (d.sizes.lookup v).isSome
            · exact Or.inl h5
            · rw [if_neg h5] at hx
              split at hx
              · by_cases hl : e.arr.shape.length < 3
                · rw [if_pos hl] at hx; simp at hx
                · rw [if_neg hl] at hx
                  cases hd : e.dims with
                  | none => rw [hd] at hx; simp at hx
                  | some ds =>
                    rw [hd] at hx
                    simp only at hx
                    by_cases ht : ds.take 3 ≠ ["state", "target", "target_point"]
                    · rw [if_pos ht] at hx; simp at hx
                    · exact Or.inr (Or.inr ⟨by omega, ds, rfl, not_not.1 ht⟩)
              · simp at hx
  stack := by
    intro d x ds a hx hd hs
    rcases hx with ⟨h, _⟩ | ⟨h, _⟩ | ⟨_, _, h3, h4⟩
    · exact absurd h (by decide)
    · exact absurd h (by decide)
    · refine Or.inr (Or.inr ⟨by decide, by decide, h3, ?_⟩)
      rcases h4 with h | ⟨h, _⟩ | ⟨h1, ds', h2, h5⟩
      · exact Or.inr (Or.inl ⟨rfl, h⟩)
      · exact absurd h (by decide)
      · rw [hd] at h2
        simp only [Option.some.injEq] at h2
        subst h2
        exact Or.inr (Or.inr ⟨by simp [hs]; omega, _, rfl, take_append_of_take 3 _ _ _ h5 rfl⟩)
  coord := by
    intro d d' w f c n val ds hx hfin hne hw hP hds hc hno hn
    obtain ⟨hb, _⟩ := final_both hfin hne
    have hc1 : c ≠ "targets" ∧ c ≠ "tpoint_weights" := by
      rcases hP with ⟨_, h, _⟩ | ⟨_, h, _⟩ | ⟨_, _, h, _⟩
      · rw [hds] at h
        simp only [Option.some.injEq] at h
        subst h
        constructor <;> (rintro rfl; revert hc; decide)
      · rw [hds] at h
        simp only [Option.some.injEq] at h
        subst h
        constructor <;> (rintro rfl; revert hc; decide)
      · constructor
        · rintro rfl; have := h.1; rw [hno] at this; simp at this
        · rintro rfl; have := h.2; rw [hno] at this; simp at this
    exact Or.inr (Or.inr ⟨hc1.1, hc1.2, hb, Or.inl (hx.size (by rw [hn]; rfl))⟩)

lemma fit_at {d : Data V} {v c : String} {e : Entry V} {ds : List String} {i n m : ℕ} (h : FitX d v e) (hd : e.dims = some ds) (hc : ds[i]? = some c) (hx : v ≠ "txyh" ∨ c ≠ "xyh")
    (hn : e.arr.shape[i]? = some n) (hm : d.sizes.lookup c = some m) : n = m ∨ n = 1 := by
  rcases h ds i c hd hc with ⟨h1, h2, _⟩ | ⟨n', m', a, b, r⟩
  · rcases hx with hx | hx
    · exact absurd h1 hx
    · exact absurd h2 hx
  · rw [hn] at a; rw [hm] at b
    simp only [Option.some.injEq] at a b
    subst a; subst b; exact r

/-- **C82 (target data).** After any sequence of successful constructions, additions and slices, target data that is not empty has target points with axes states, targets, points, coordinates and one weight for
each point; the first three axes of all other entries are states, targets and points. All with the sizes of the container, or of size one. Excepted are entries named after dimensions. -/
theorem C82_target (coord : ℕ → V) (d : Data V) (h : Built .target coord d) (hX : d.size "X" = none) (v : String) (e : Entry V) (he : d.entries.lookup v = some e) :
    ∃ ns nt np, d.size "state" = some ns ∧ d.size "target" = some nt ∧ d.size "target_point" = some np ∧
      (∃ t a b c, d.entries.lookup "targets" = some t ∧ t.dims = some ["state", "target", "target_point", "xyh"] ∧ t.arr.shape = [a, b, c, 3] ∧ (a = ns ∨ a = 1) ∧ (b = nt ∨ b = 1) ∧ (c = np ∨ c = 1)) ∧
      (∃ w c, d.entries.lookup "tpoint_weights" = some w ∧ w.dims = some ["target_point"] ∧ w.arr.shape = [c] ∧ (c = np ∨ c = 1)) ∧
      (d.size v = none → v ≠ "targets" → v ≠ "tpoint_weights" → ∃ ds a b c rest, e.dims = some ("state" :: "target" :: "target_point" :: ds) ∧ e.arr.shape = a :: b :: c :: rest ∧
        (a = ns ∨ a = 1) ∧ (b = nt ∨ b = 1) ∧ (c = np ∨ c = 1)) := by
  have hf := built_final h
  obtain ⟨hfit, _⟩ := built_all (fitLaw .target) coord d h
  obtain ⟨hform, _⟩ := built_all targetLaw coord d h
  have hne : d.entries ≠ [] := by rintro hn; rw [hn] at he; simp at he
  obtain ⟨⟨hb1, hb2⟩, hs1, hs2, hs3⟩ := final_both hf hne
  obtain ⟨ns, hns⟩ := Option.isSome_iff_exists.1 hs1
  obtain ⟨nt, hnt⟩ := Option.isSome_iff_exists.1 hs2
  obtain ⟨np, hnp⟩ := Option.isSome_iff_exists.1 hs3
  obtain ⟨t, ht⟩ := Option.isSome_iff_exists.1 hb1
  obtain ⟨w, hw⟩ := Option.isSome_iff_exists.1 hb2
  refine ⟨ns, nt, np, hns, hnt, hnp, ?_, ?_, ?_⟩
  · rcases hform _ t ht with ⟨_, hd, a, b, c, hsh⟩ | ⟨h, _⟩ | ⟨h, _⟩
    · exact ⟨t, a, b, c, ht, hd, hsh, fit_at (i := 0) (hfit _ t ht) hd rfl (by decide) (by rw [hsh]; rfl) hns, fit_at (i := 1) (hfit _ t ht) hd rfl (by decide) (by rw [hsh]; rfl) hnt,
        fit_at (i := 2) (hfit _ t ht) hd rfl (by decide) (by rw [hsh]; rfl) hnp⟩
    · exact absurd h (by decide)
    · exact absurd rfl h
  · rcases hform _ w hw with ⟨h, _⟩ | ⟨_, hd, c, hsh⟩ | ⟨_, h, _⟩
    · exact absurd h (by decide)
    · exact ⟨w, c, hw, hd, hsh, fit_at (i := 0) (hfit _ w hw) hd rfl (by decide) (by rw [hsh]; rfl) hnp⟩
    · exact absurd rfl h
  · intro hv h1 h2
    rcases hform v e he with ⟨h, _⟩ | ⟨h, _⟩ | ⟨_, _, _, h4⟩
    · exact absurd h h1
    · exact absurd h h2
    · rcases h4 with h | ⟨_, h⟩ | ⟨hlen, ds, hds, htk⟩
      · simp only [Data.size] at hv; rw [hv] at h; simp at h
      · simp only [Data.size] at hX; rw [hX] at h; simp at h
      · obtain ⟨ds', rfl⟩ : ∃ ds', ds = "state" :: "target" :: "target_point" :: ds' := by
          refine ⟨ds.drop 3, ?_⟩
          conv_lhs => rw [← List.take_append_drop 3 ds, htk]
          rfl
        match hsh : e.arr.shape, hlen with
        | a :: b :: c :: rest, _ =>
          exact ⟨ds', a, b, c, rest, hds, rfl, fit_at (i := 0) (hfit _ e he) hds rfl (Or.inr (by decide)) (by rw [hsh]; rfl) hns, fit_at (i := 1) (hfit _ e he) hds rfl (Or.inr (by decide)) (by rw [hsh]; rfl) hnt,
            fit_at (i := 2) (hfit _ e he) hds rfl (Or.inr (by decide)) (by rw [hsh]; rfl) hnp⟩

/-- **C82 (sizes).** In all containers, after any history without exception: each axis has the size of its dimension, or size one; excepted is the last axis of combined positions. -/
theorem C82_sizes (k : Kind) (coord : ℕ → V) (d : Data V) (h : Built k coord d) (v : String) (e : Entry V) (ds : List String) (i : ℕ) (c : String)
    (he : d.entries.lookup v = some e) (hds : e.dims = some ds) (hc : ds[i]? = some c) (hx : v ≠ "txyh" ∨ c ≠ "xyh") : ∃ n, e.arr.shape[i]? = some n ∧ (n = 1 ∨ d.size c = some n) := by
  rcases (built_all (fitLaw k) coord d h).1 v e he ds i c hds hc with ⟨h1, h2, _⟩ | ⟨n, m, h1, h2, h3⟩
  · rcases hx with hx | hx
    · exact absurd h1 hx
    · exact absurd h2 hx
  · refine ⟨n, h1, ?_⟩
    rcases h3 with rfl | h3
    · exact Or.inr h2
    · exact Or.inl h3

/-! ## Combined positions -/

lemma update_positions {k : Kind} {coord : ℕ → V} {d d' : Data V} (h : update k coord d = (d', none)) (h0 : d.entries.lookup "txyh" = none) {x y z : Entry V} {ds : List String}
    (hx : d'.entries.lookup "X" = some x) (hy : d'.entries.lookup "Y" = some y) (hz : d'.entries.lookup "H" = some z) (sx : d'.size "X" = none) (sy : d'.size "Y" = none) (sz : d'.size "H" = none)
    (dx : x.dims = some ds) (dy : y.dims = some ds) (dz : z.dims = some ds) :
    d'.entries.lookup "txyh" = some ⟨stackArr x.arr y.arr z.arr, some (ds ++ ["xyh"])⟩ ∧ x.arr.shape = y.arr.shape ∧ x.arr.shape = z.arr.shape := by
  unfold update at h
  cases hc : combine d with
  | error e => rw [hc] at h; simp at h
  | ok d1 =>
    rw [hc] at h
    simp only [Prod.mk.injEq] at h
    obtain ⟨rfl, _⟩ := h
    obtain ⟨p1, p2, _⟩ := coordFold_spec coord d1.sizes (dimNames d1.entries) d1.entries
    rw [autoUpdate_eq] at hx hy hz sx sy sz ⊢
    simp only [Data.size] at hx hy hz sx sy sz ⊢
    have back : ∀ v e, ((dimNames d1.entries).foldl (coordStep coord d1.sizes) d1.entries).lookup v = some e → d1.sizes.lookup v = none → d1.entries.lookup v = some e := by
      intro v e he hs
      rcases p2 v e he with h | ⟨_, _, n, hn, _⟩
      · exact h
      · rw [hs] at hn; simp at hn
    have bx := back _ _ hx sx
    have by' := back _ _ hy sy
    have bz := back _ _ hz sz
    rcases combine_spec hc with rfl | ⟨x', y', z', ds', _, hx', hy', hz', hxd, _, _, s1, s2, rfl⟩
    · exfalso
      unfold combine at hc
      rw [h0, bx, by', bz] at hc
      simp only [dx, dy, dz, and_self, if_true] at hc
      split at hc
      · simp only [Except.ok.injEq] at hc
        have := congrArg (fun d : Data V => d.entries.lookup "txyh") hc
        simp only [lookup_insertKey, if_true] at this
        rw [h0] at this; simp at this
      · simp at hc
    · simp only [lookup_insertKey] at bx by' bz
      rw [if_neg (by decide), hx'] at bx
      rw [if_neg (by decide), hy'] at by'
      rw [if_neg (by decide), hz'] at bz
      simp only [Option.some.injEq] at bx by' bz
      subst bx; subst by'; subst bz
      rw [hxd] at dx
      simp only [Option.some.injEq] at dx
      subst dx
      exact ⟨p1 _ _ (by simp only [lookup_insertKey, if_true]), s1, s2⟩

lemma checks_absent {k : Kind} {d d' : Data V} {v w : String} {e : Entry V} (h : checks k d v e = (d', none)) (hv : d.entries.lookup v = some e) (hw : d.entries.lookup w = none) :
    d'.entries.lookup w = none := by
  obtain ⟨hc, _⟩ := checks_ok h
  obtain ⟨_, _, _, h1, _, _⟩ := entryChecks_spec _ _ _ _ hc
  have : w ≠ v := by rintro rfl; rw [hw] at hv; simp at hv
  rw [h1 w this]; exact hw

lemma initLoopK_absent {k : Kind} {w : String} (l : List (String × Entry V)) (d d' : Data V) (h : initLoopK k d l = .ok d') (hnd : (l.map Prod.fst).Nodup)
    (hl : ∀ v e, (v, e) ∈ l → d.entries.lookup v = some e) (hw : d.entries.lookup w = none) : d'.entries.lookup w = none := by
  induction l generalizing d with
  | nil => simp [initLoopK] at h; subst h; exact hw
  | cons p l ih =>
    obtain ⟨v, f⟩ := p
    simp only [initLoopK] at h
    cases hec : checks k d v f with
    | mk d1 o =>
      rw [hec] at h
      cases o with
      | some x => simp at h
      | none =>
        simp only at h
        have hv := hl v f List.mem_cons_self
        obtain ⟨hc0, _⟩ := checks_ok hec
        obtain ⟨_, _, _, h1, _, _⟩ := entryChecks_spec _ _ _ _ hc0
        simp only [List.map_cons, List.nodup_cons] at hnd
        refine ih d1 h hnd.2 ?_ (checks_absent hec hv hw)
        intro u e hue
        have : u ≠ v := by
          rintro rfl
          exact hnd.1 (List.mem_map.2 ⟨(u, e), hue, rfl⟩)
        rw [h1 u this]
        exact hl u e (List.mem_cons_of_mem _ hue)

/-- what the combined positions have to be: one more axis, with x, y and the height -/
def IsStack (t x y z : Entry V) : Prop :=
  ∃ ds, x.dims = some ds ∧ t.dims = some (ds ++ ["xyh"]) ∧ t.arr.shape = x.arr.shape ++ [3] ∧
    ∀ idx, t.arr.val (idx ++ [0]) = x.arr.val idx ∧ t.arr.val (idx ++ [1]) = y.arr.val idx ∧ t.arr.val (idx ++ [2]) = z.arr.val idx

lemma isStack (x y z : Entry V) (ds : List String) (h : x.dims = some ds) : IsStack ⟨stackArr x.arr y.arr z.arr, some (ds ++ ["xyh"])⟩ x y z := by
  refine ⟨ds, h, rfl, rfl, fun idx => ?_⟩
  simp [stackArr]

/-- **C82 (positions).** If the container has X, Y and H with the same dimensions and the user gives no combined positions, then they are made when the container is created: their last axis is X, Y, H ... -/
theorem C82_positions (k : Kind) (coord : ℕ → V) (es : List (String × Entry V)) (ld : List String) (i0 : Option ℕ) (d : Data V) (hnd : (es.map Prod.fst).Nodup) (h : createK k coord es ld i0 = .ok d)
    (h0 : es.lookup "txyh" = none) (x y z : Entry V) (hx : d.entries.lookup "X" = some x) (hy : d.entries.lookup "Y" = some y) (hz : d.entries.lookup "H" = some z)
    (sx : d.size "X" = none) (sy : d.size "Y" = none) (sz : d.size "H" = none) (dx : x.dims ≠ none) (dy : y.dims = x.dims) (dz : z.dims = x.dims) :
    ∃ t, d.entries.lookup "txyh" = some t ∧ IsStack t x y z := by
  obtain ⟨ds, hds⟩ := Option.ne_none_iff_exists'.1 dx
  unfold createK at h
  cases hi : initLoopK k { entries := es, sizes := [], loopDims := ld, i0 := i0 } es with
  | error x => rw [hi] at h; simp at h
  | ok d1 =>
    rw [hi] at h
    simp only at h
    cases hu : update k coord d1 with
    | mk d2 o =>
      rw [hu] at h
      cases o with
      | some x => simp at h
      | none =>
        simp only [Except.ok.injEq] at h
        subst h
        have ha := initLoopK_absent (w := "txyh") es _ d1 hi hnd (fun v e hve => lookup_of_mem es hnd v e hve) h0
        exact ⟨_, (update_positions hu ha hx hy hz sx sy sz hds (dy.trans hds) (dz.trans hds)).1, isStack x y z ds hds⟩

/-- **C82 (positions).** ... or when the last of them is added. -/
theorem C82_positions_add (k : Kind) (coord : ℕ → V) (d d' : Data V) (v : String) (e : Entry V) (hv : v ≠ "txyh") (h : addK k coord d v e = (d', none))
    (h0 : d.entries.lookup "txyh" = none) (x y z : Entry V) (hx : d'.entries.lookup "X" = some x) (hy : d'.entries.lookup "Y" = some y) (hz : d'.entries.lookup "H" = some z)
    (sx : d'.size "X" = none) (sy : d'.size "Y" = none) (sz : d'.size "H" = none) (dx : x.dims ≠ none) (dy : y.dims = x.dims) (dz : z.dims = x.dims) :
    ∃ t, d'.entries.lookup "txyh" = some t ∧ IsStack t x y z := by
  obtain ⟨ds, hds⟩ := Option.ne_none_iff_exists'.1 dx
  unfold addK at h
  cases hec : checks k { d with entries := insertKey v e d.entries } v e with
  | mk d2 o =>
    rw [hec] at h
    cases o with
    | some x => simp at h
    | none =>
      simp only at h
      have ha := checks_absent (w := "txyh") hec (by simp [lookup_insertKey]) (by simp only [lookup_insertKey, if_neg hv.symm]; exact h0)
      exact ⟨_, (update_positions h ha hx hy hz sx sy sz hds (dy.trans hds) (dz.trans hds)).1, isStack x y z ds hds⟩

/-- **C82 (finding).** They are made only once: whatever is added later, also other X, Y or H, the combined positions stay as they are. -/
theorem C82_positions_stale (k : Kind) (coord : ℕ → V) (d d' : Data V) (v : String) (e t : Entry V) (hv : v ≠ "txyh") (h : addK k coord d v e = (d', none)) (ht : d.entries.lookup "txyh" = some t) :
    d'.entries.lookup "txyh" = some t := by
  unfold addK at h
  cases hec : checks k { d with entries := insertKey v e d.entries } v e with
  | mk d2 o =>
    rw [hec] at h
    cases o with
    | some x => simp at h
    | none =>
      simp only at h
      obtain ⟨hc0, _⟩ := checks_ok hec
      obtain ⟨_, _, _, h1, _, _⟩ := entryChecks_spec _ _ _ _ hc0
      have h2 : d2.entries.lookup "txyh" = some t := by
        rw [h1 _ hv.symm]
        simp only [lookup_insertKey, if_neg hv.symm]; exact ht
      unfold update at h
      cases hc : combine d2 with
      | error x => rw [hc] at h; simp at h
      | ok d3 =>
        rw [hc] at h
        simp only [Prod.mk.injEq] at h
        obtain ⟨rfl, _⟩ := h
        rcases combine_spec hc with rfl | ⟨_, _, _, _, hn, _⟩
        · rw [autoUpdate_eq]
          exact (coordFold_spec coord d3.sizes (dimNames d3.entries) d3.entries).1 _ _ h2
        · rw [h2] at hn; simp at hn

/-! ## Empty target data -/

/-- **C82 (finding).** Target data can be created empty, but then nothing can be added: each addition raises an exception (the points need the weights, the weights need the points). -/
theorem C82_empty_target (coord : ℕ → V) (ld : List String) (i0 : Option ℕ) :
    ∃ d : Data V, createK .target coord [] ld i0 = .ok d ∧ ∀ v e, (addK .target coord d v e).2 ≠ none := by
  refine ⟨{ entries := [], sizes := [], loopDims := ld, i0 := i0 }, rfl, fun v e h => ?_⟩
  cases ha : addK .target coord ({ entries := [], sizes := [], loopDims := ld, i0 := i0 } : Data V) v e with
  | mk d' o =>
    rw [ha] at h
    simp only at h
    subst h
    unfold addK at ha
    cases hec : checks .target ({ entries := insertKey v e [], sizes := [], loopDims := ld, i0 := i0 } : Data V) v e with
    | mk d2 o =>
      simp only [hec] at ha
      cases o with
      | some x => simp at ha
      | none =>
        simp only at ha
        have hv0 : (insertKey v e []).lookup v = some e := by simp [insertKey]
        have habs : ∀ w, w ≠ v → d2.entries.lookup w = none := fun w hw =>
          checks_absent hec hv0 (by simp only [insertKey, List.lookup, beq_eq_false_iff_ne.2 hw])
        have hkeys : Keys d2 := entryChecks_keys (checks_ok hec).1 (by simp [Keys, insertKey])
        obtain ⟨e2, he2⟩ := Option.isSome_iff_exists.1 ((checks_ext hv0 hec).names v (by simp only; rw [hv0]; rfl))
        have hform := targetLaw.check hv0 hec he2
        have hdims : ∀ c ∈ dimNames d2.entries, ∃ ds, e2.dims = some ds ∧ c ∈ ds := by
          intro c hc
          simp only [dimNames, List.mem_flatMap] at hc
          obtain ⟨⟨w, f⟩, hw, hcw⟩ := hc
          have hl := lookup_of_mem _ hkeys w f hw
          have hwv : w = v := by
            by_contra hne
            rw [habs w hne] at hl; simp at hl
          subst hwv
          rw [he2] at hl
          simp only [Option.some.injEq] at hl
          subst hl
          cases hd : e2.dims with
          | none => simp [hd] at hcw
          | some ds => exact ⟨ds, rfl, by simpa [hd] using hcw⟩
        unfold update at ha
        cases hc : combine d2 with
        | error x => rw [hc] at ha; simp at ha
        | ok d3 =>
          rw [hc] at ha
          simp only [Prod.mk.injEq] at ha
          obtain ⟨rfl, hfin⟩ := ha
          have hd3 : d3 = d2 := by
            rcases combine_spec hc with h | ⟨x, y, z, ds, _, hx, hy, _⟩
            · exact h
            · exfalso
              by_cases hX : "X" = v
              · rw [habs "Y" (by rw [← hX]; decide)] at hy; simp at hy
              · rw [habs "X" hX] at hx; simp at hx
          subst hd3
          have hne : (autoUpdate coord d3).entries ≠ [] := by
            intro hn
            have := (autoUpdate_ext coord d3).names v (by rw [he2]; rfl)
            rw [hn] at this; simp at this
          obtain ⟨⟨hb1, hb2⟩, _⟩ := final_both hfin hne
          rw [autoUpdate_eq] at hb1 hb2
          obtain ⟨_, p2, _⟩ := coordFold_spec coord d3.sizes (dimNames d3.entries) d3.entries
          obtain ⟨t, ht⟩ := Option.isSome_iff_exists.1 hb1
          obtain ⟨w, hw⟩ := Option.isSome_iff_exists.1 hb2
          rcases hform with ⟨hv, hd, _⟩ | ⟨hv, hd, _⟩ | ⟨h1, _, hb, _⟩
          · rcases p2 _ _ hw with h | ⟨_, hm, _⟩
            · rw [habs _ (by rw [hv]; decide)] at h; simp at h
            · obtain ⟨ds, h1, h2⟩ := hdims _ hm
              rw [hd] at h1
              simp only [Option.some.injEq] at h1
              subst h1
              revert h2; decide
          · rcases p2 _ _ ht with h | ⟨_, hm, _⟩
            · rw [habs _ (by rw [hv]; decide)] at h; simp at h
            · obtain ⟨ds, h1, h2⟩ := hdims _ hm
              rw [hd] at h1
              simp only [Option.some.injEq] at h1
              subst h1
              revert h2; decide
          · have := hb.1
            rw [habs _ (Ne.symm h1)] at this
            simp at this

/-! ## Target data from points -/

/-- names that variables may have -/
def FreeName (v : String) : Prop := v ∉ ["targets", "tpoint_weights", "state", "target", "target_point", "xyh"]

lemma insertKey_fresh {α : Type} (k : String) (x : α) (l : List (String × α)) (h : k ∉ l.map Prod.fst) : insertKey k x l = l ++ [(k, x)] := by
  induction l with
  | nil => rfl
  | cons p l ih =>
    obtain ⟨a, y⟩ := p
    simp only [List.map_cons, List.mem_cons, not_or] at h
    simp only [insertKey, if_neg (Ne.symm h.1), ih h.2, List.cons_append]

lemma targetEntries_eq (a w em : Arr V) (vars : List String) (hf : ∀ v ∈ vars, FreeName v) (hnd : vars.Nodup) :
    targetEntries [] a w em vars = ("targets", ⟨a, some targetDims⟩) :: ("tpoint_weights", ⟨w, some ["target_point"]⟩) :: vars.map fun v => (v, ⟨em, some ["state", "target", "target_point"]⟩) := by
  have base : insertKey "tpoint_weights" ⟨w, some ["target_point"]⟩ (insertKey "targets" ⟨a, some targetDims⟩ []) = [("targets", (⟨a, some targetDims⟩ : Entry V)), ("tpoint_weights", ⟨w, some ["target_point"]⟩)] := by
    simp [insertKey]
  unfold targetEntries
  rw [base]
  suffices hs : ∀ (pre : List (String × Entry V)), (∀ v ∈ vars, v ∉ pre.map Prod.fst) →
      vars.foldl (fun es v => insertKey v ⟨em, some ["state", "target", "target_point"]⟩ es) pre = pre ++ vars.map fun v => (v, ⟨em, some ["state", "target", "target_point"]⟩) by
    refine hs _ fun v hv => ?_
    have := hf v hv
    simp only [FreeName, List.mem_cons, not_or] at this
    simp only [List.map_cons, List.map_nil, List.mem_cons, List.not_mem_nil, or_false, not_or]
    exact ⟨this.1, this.2.1⟩
  clear base
  induction vars with
  | nil => intro pre _; simp
  | cons v vs ih =>
    intro pre hpre
    rw [List.foldl_cons, insertKey_fresh _ _ _ (hpre v List.mem_cons_self)]
    simp only [List.nodup_cons] at hnd
    rw [ih (fun u hu => hf u (List.mem_cons_of_mem _ hu)) hnd.2]
    · simp
    · intro u hu
      simp only [List.map_append, List.map_cons, List.map_nil, List.mem_append, List.mem_singleton, not_or]
      exact ⟨hpre u (List.mem_cons_of_mem _ hu), fun e => hnd.1 (e ▸ hu)⟩

/-- the table of sizes that results -/
def targetSizes (s t q : ℕ) : List (String × ℕ) := [("state", s), ("target", t), ("target_point", q), ("xyh", 3)]

lemma checkSizes_same (sizes : List (String × ℕ)) (cs : List String) (ns : List ℕ) (hlen : cs.length = ns.length)
    (h : ∀ (i : ℕ) (c : String) (n : ℕ), cs[i]? = some c → ns[i]? = some n → ∃ m, sizes.lookup c = some m ∧ (n = m ∨ (n = 1 ∧ m ≠ 1))) : checkSizes sizes cs ns = (sizes, none) := by
  induction cs generalizing ns with
  | nil => rfl
  | cons c cs ih =>
    cases ns with
    | nil => simp at hlen
    | cons n ns =>
      have ih' := ih ns (by simpa using hlen) (fun i c' n' h1 h2 => h (i + 1) c' n' (by simpa using h1) (by simpa using h2))
      obtain ⟨m, hm, hnm⟩ := h 0 c n rfl rfl
      simp only [checkSizes, hm]
      by_cases h1 : m = 1
      · rw [if_pos h1]
        have hn : n = m := by
          rcases hnm with h | ⟨_, h⟩
          · exact h
          · exact absurd h1 h
        rw [insertKey_self _ _ _ (by rw [hm, hn])]
        exact ih'
      · rw [if_neg h1]
        by_cases h2 : n = 1
        · rw [if_pos h2]; exact ih'
        · rw [if_neg h2]
          rcases hnm with h | ⟨h, _⟩
          · rw [if_neg (by simp [h])]; exact ih'
          · exact absurd h h2

lemma entryChecks_same (d : Data V) (v : String) (e : Entry V) (ds : List String) (hd : e.dims = some ds) (hlen : ds.length = e.arr.shape.length) (hv : d.entries.lookup v = some e) :
    entryChecks d v e = ({ d with sizes := (checkSizes d.sizes ds e.arr.shape).1 }, (checkSizes d.sizes ds e.arr.shape).2) := by
  have hk : kept d.loopDims ds e.arr = .ok e.arr := by unfold kept; rw [if_neg (by simp [hlen])]
  have hi : insertKey v ⟨e.arr, some ds⟩ d.entries = d.entries := insertKey_self _ _ _ (by rw [hv, ← hd])
  simp only [entryChecks, hd, hk, hi]

lemma vars_loop (s t p q : ℕ) (hpq : q = p ∨ p = 1) (em : Arr V) (hem : em.shape = [s, t, p]) (d : Data V) (hs : d.sizes = targetSizes s t q) (hb : Both d) (vars : List String)
    (hf : ∀ v ∈ vars, FreeName v) (hl : ∀ v ∈ vars, d.entries.lookup v = some ⟨em, some ["state", "target", "target_point"]⟩) :
    initLoopK .target d (vars.map fun v => (v, ⟨em, some ["state", "target", "target_point"]⟩)) = .ok d := by
  induction vars with
  | nil => rfl
  | cons v vs ih =>
    have hv := hl v List.mem_cons_self
    have hfv := hf v List.mem_cons_self
    simp only [FreeName, List.mem_cons, List.not_mem_nil, or_false, not_or] at hfv
    obtain ⟨n1, n2, n3, n4, n5, n6⟩ := hfv
    have hcs : checkSizes d.sizes ["state", "target", "target_point"] em.shape = (d.sizes, none) := by
      apply checkSizes_same _ _ _ (by simp [hem])
      intro i c n hc hn
      rw [hem] at hn
      match i with
      | 0 => simp at hc hn; subst hc; subst hn; exact ⟨s, by simp [hs, targetSizes], Or.inl rfl⟩
      | 1 => simp at hc hn; subst hc; subst hn; exact ⟨t, by simp [hs, targetSizes, List.lookup], Or.inl rfl⟩
      | 2 =>
        simp at hc hn; subst hc; subst hn
        refine ⟨q, by simp [hs, targetSizes, List.lookup], ?_⟩
        rcases hpq with h | h
        · exact Or.inl h.symm
        · by_cases hq : q = 1
          · exact Or.inl (h.trans hq.symm)
          · exact Or.inr ⟨h, hq⟩
      | i + 3 => simp at hc
    have hec : entryChecks d v ⟨em, some ["state", "target", "target_point"]⟩ = (d, none) := by
      rw [entryChecks_same d v _ ["state", "target", "target_point"] rfl (by simp [hem]) hv, hcs]
    have hlk : d.sizes.lookup v = none := by
      rw [hs]
      simp only [targetSizes, List.lookup, beq_eq_false_iff_ne.2 n3, beq_eq_false_iff_ne.2 n4, beq_eq_false_iff_ne.2 n5, beq_eq_false_iff_ne.2 n6]
    have hex : extra .target d v = none := by
      obtain ⟨b1, b2⟩ := hb
      obtain ⟨x1, hx1⟩ := Option.isSome_iff_exists.1 b1
      obtain ⟨x2, hx2⟩ := Option.isSome_iff_exists.1 b2
      have h1 : d.sizes.lookup "target" = some t := by simp [hs, targetSizes, List.lookup]
      have h2 : d.sizes.lookup "target_point" = some q := by simp [hs, targetSizes, List.lookup]
      simp [extra, targetCheck, hv, n1, n2, hx1, hx2, hlk, h1, h2, hem]
    have hch : checks .target d v ⟨em, some ["state", "target", "target_point"]⟩ = (d, none) := by
      simp only [checks, hec, hex]
    simp only [List.map_cons, initLoopK, hch]
    exact ih (fun u hu => hf u (List.mem_cons_of_mem _ hu)) (fun u hu => hl u (List.mem_cons_of_mem _ hu))

lemma checks_same {k : Kind} (d : Data V) (v : String) (e : Entry V) (ds : List String) (sz : List (String × ℕ)) (hd : e.dims = some ds) (hlen : ds.length = e.arr.shape.length) (hv : d.entries.lookup v = some e)
    (hs : checkSizes d.sizes ds e.arr.shape = (sz, none)) : checks k d v e = ({ d with sizes := sz }, extra k { d with sizes := sz } v) := by
  simp only [checks, entryChecks_same d v e ds hd hlen hv, hs]

lemma target_create (coord : ℕ → V) (s t p q : ℕ) (hpq : q = p ∨ p = 1) (a w em : Arr V) (ha : a.shape = [s, t, p, 3]) (hw : w.shape = [q]) (hem : em.shape = [s, t, p]) (vars : List String)
    (hf : ∀ v ∈ vars, FreeName v) (hnd : vars.Nodup) :
    ∃ d, createK .target coord (targetEntries [] a w em vars) ["state", "target"] none = .ok d ∧ d.sizes = targetSizes s t q ∧ d.entries.lookup "targets" = some ⟨a, some targetDims⟩ ∧
      d.entries.lookup "tpoint_weights" = some ⟨w, some ["target_point"]⟩ ∧ ∀ v ∈ vars, d.entries.lookup v = some ⟨em, some ["state", "target", "target_point"]⟩ := by
  rw [targetEntries_eq a w em vars hf hnd]
  set es : List (String × Entry V) := ("targets", ⟨a, some targetDims⟩) :: ("tpoint_weights", ⟨w, some ["target_point"]⟩) :: vars.map fun v => (v, ⟨em, some ["state", "target", "target_point"]⟩) with hes
  have l1 : es.lookup "targets" = some ⟨a, some targetDims⟩ := by simp [hes]
  have l2 : es.lookup "tpoint_weights" = some ⟨w, some ["target_point"]⟩ := by simp [hes, List.lookup]
  have l3 : ∀ v ∈ vars, es.lookup v = some ⟨em, some ["state", "target", "target_point"]⟩ := by
    intro v hv
    have hfv := hf v hv
    simp only [FreeName, List.mem_cons, List.not_mem_nil, or_false, not_or] at hfv
    simp only [hes, List.lookup, beq_eq_false_iff_ne.2 hfv.1, beq_eq_false_iff_ne.2 hfv.2.1]
    clear hes l1 l2 hf hnd es hfv
    induction vars with
    | nil => simp at hv
    | cons u us ih =>
      simp only [List.map_cons]
      by_cases huv : v = u
      · subst huv; simp
      · simp only [List.lookup, beq_eq_false_iff_ne.2 huv]
        rcases List.mem_cons.1 hv with h | h
        · exact absurd h huv
        · exact ih h
  have c1 : checkSizes [] targetDims a.shape = (targetSizes s t p, none) := by
    rw [ha]
    simp [checkSizes, targetDims, targetSizes, insertKey, List.lookup]
  have x1 : extra .target ({ entries := es, sizes := targetSizes s t p, loopDims := ["state", "target"], i0 := none } : Data V) "targets" = none := by
    simp [extra, targetCheck, l1, targetSizes, List.lookup, ha]
  have c2 : checkSizes (targetSizes s t p) ["target_point"] w.shape = (targetSizes s t q, none) := by
    rw [hw]
    have hlk : (targetSizes s t p).lookup "target_point" = some p := by simp [targetSizes, List.lookup]
    have hins : insertKey "target_point" q (targetSizes s t p) = targetSizes s t q := by simp [targetSizes, insertKey]
    simp only [checkSizes, hlk]
    by_cases h1 : p = 1
    · rw [if_pos h1, hins]
    · rcases hpq with h | h
      · subst h
        rw [if_neg h1, if_neg h1, if_neg (by simp)]
      · exact absurd h h1
  have x2 : extra .target ({ entries := es, sizes := targetSizes s t q, loopDims := ["state", "target"], i0 := none } : Data V) "tpoint_weights" = none := by
    simp [extra, targetCheck, l2, targetSizes, List.lookup, hw]
  have loop : initLoopK .target ({ entries := es, sizes := [], loopDims := ["state", "target"], i0 := none } : Data V) es = .ok { entries := es, sizes := targetSizes s t q, loopDims := ["state", "target"], i0 := none } := by
    suffices hs : ∀ es0 : List (String × Entry V), es0 = es → initLoopK .target ({ entries := es0, sizes := [], loopDims := ["state", "target"], i0 := none } : Data V) es = .ok { entries := es0, sizes := targetSizes s t q, loopDims := ["state", "target"], i0 := none } from hs es rfl
    intro es0 h0
    rw [← h0] at l1 l2 l3 x1 x2
    simp only [hes, initLoopK]
    rw [checks_same _ _ _ targetDims _ rfl (by simp [targetDims, ha]) l1 c1]
    simp only [x1]
    rw [checks_same _ _ _ ["target_point"] _ rfl (by simp [hw]) l2 c2]
    simp only [x2]
    exact vars_loop s t p q hpq em hem _ rfl ⟨by simp only; rw [l1]; rfl, by simp only; rw [l2]; rfl⟩ vars hf l3
  simp only [createK, loop]
  set d1 : Data V := { entries := es, sizes := targetSizes s t q, loopDims := ["state", "target"], i0 := none } with hd1
  have hcomb : ∃ d2, combine d1 = .ok d2 := by
    unfold combine
    cases h0 : d1.entries.lookup "txyh" with
    | some x => exact ⟨d1, by simp⟩
    | none =>
      have look : ∀ v, FreeName v → d1.entries.lookup v = none ∨ d1.entries.lookup v = some ⟨em, some ["state", "target", "target_point"]⟩ := by
        intro v hv
        by_cases hm : v ∈ vars
        · exact Or.inr (l3 v hm)
        · left
          show es.lookup v = none
          cases hq : es.lookup v with
          | none => rfl
          | some x =>
            have := mem_of_lookup _ _ _ hq
            simp only [FreeName, List.mem_cons, List.not_mem_nil, or_false, not_or] at hv
            simp only [hes, List.mem_cons, Prod.mk.injEq, List.mem_map] at this
            rcases this with ⟨h, _⟩ | ⟨h, _⟩ | ⟨u, hu, h, _⟩
            · exact absurd h hv.1
            · exact absurd h hv.2.1
            · exact absurd (h ▸ hu) hm
      rcases look "X" (by unfold FreeName; decide) with h | h
      · rw [h]; exact ⟨d1, rfl⟩
      · rcases look "Y" (by unfold FreeName; decide) with h' | h'
        · rw [h, h']; exact ⟨d1, rfl⟩
        · rcases look "H" (by unfold FreeName; decide) with h'' | h''
          · rw [h, h', h'']; exact ⟨d1, rfl⟩
          · rw [h, h', h'']; simp
  obtain ⟨d2, hd2⟩ := hcomb
  have hsz : d2.sizes = targetSizes s t q := by
    rcases combine_spec hd2 with h | ⟨x, y, z, ds, _, _, _, _, _, _, _, _, _, h⟩ <;> rw [h]
  have hkeep : ∀ v e, d1.entries.lookup v = some e → (autoUpdate coord d2).entries.lookup v = some e := by
    intro v e he
    rw [autoUpdate_eq]
    apply (coordFold_spec coord d2.sizes (dimNames d2.entries) d2.entries).1
    rcases combine_spec hd2 with h | ⟨x, y, z, ds, h0, _, _, _, _, _, _, _, _, h⟩
    · rw [h]; exact he
    · rw [h]
      simp only [lookup_insertKey]
      have : v ≠ "txyh" := by rintro rfl; rw [h0] at he; simp at he
      rw [if_neg this]; exact he
  have hfin : final .target (autoUpdate coord d2) = none := by
    have k1 := hkeep _ _ l1
    have k2 := hkeep _ _ l2
    have hne : (autoUpdate coord d2).entries.isEmpty = false := by
      cases hq : (autoUpdate coord d2).entries with
      | nil => rw [hq] at k1; simp at k1
      | cons _ _ => rfl
    have hsz' : (autoUpdate coord d2).sizes = targetSizes s t q := hsz
    simp [final, hne, k1, k2, hsz', targetSizes, List.lookup]
  refine ⟨autoUpdate coord d2, ?_, hsz, hkeep _ _ l1, hkeep _ _ l2, fun v hv => hkeep v _ (l3 v hv)⟩
  simp only [update, hd2, hfin]

/-- **C82 (points).** Target data of points: made for all points of shape states × points × 3 and only for these; one target for each point, with the given coordinates and the weight one; the asked variables are there, all missing. -/
theorem C82_from_points (coord : ℕ → V) (nan one : V) (points : Arr V) (vars : List String) (hf : ∀ v ∈ vars, FreeName v) (hnd : vars.Nodup) :
    ((∃ d, fromPoints coord nan one points [] vars = .ok d) ↔ ∃ s t, points.shape = [s, t, 3]) ∧
    ∀ s t d, points.shape = [s, t, 3] → fromPoints coord nan one points [] vars = .ok d →
      d.size "state" = some s ∧ d.size "target" = some t ∧ d.size "target_point" = some 1 ∧
      (∃ e, d.entries.lookup "targets" = some e ∧ e.arr.shape = [s, t, 1, 3] ∧ ∀ i j k, e.arr.val [i, j, 0, k] = points.val [i, j, k]) ∧
      (∃ e, d.entries.lookup "tpoint_weights" = some e ∧ e.arr.shape = [1] ∧ e.arr.val [0] = one) ∧
      ∀ v ∈ vars, ∃ e, d.entries.lookup v = some e ∧ e.arr.shape = [s, t, 1] ∧ ∀ idx, e.arr.val idx = nan := by
  have main : ∀ s t, points.shape = [s, t, 3] → ∃ d, fromPoints coord nan one points [] vars = .ok d ∧ d.sizes = targetSizes s t 1 ∧
      d.entries.lookup "targets" = some ⟨⟨[s, t, 1, 3], fun idx => points.val (idx.eraseIdx 2)⟩, some targetDims⟩ ∧
      d.entries.lookup "tpoint_weights" = some ⟨⟨[1], fun _ => one⟩, some ["target_point"]⟩ ∧ ∀ v ∈ vars, d.entries.lookup v = some ⟨⟨[s, t, 1], fun _ => nan⟩, some ["state", "target", "target_point"]⟩ := by
    intro s t h
    simp only [fromPoints, h]
    exact target_create coord s t 1 1 (Or.inl rfl) _ _ _ rfl rfl rfl vars hf hnd
  constructor
  · constructor
    · rintro ⟨d, hd⟩
      unfold fromPoints at hd
      split at hd
      · rename_i s t h; exact ⟨s, t, h⟩
      · simp at hd
    · rintro ⟨s, t, h⟩
      obtain ⟨d, hd, _⟩ := main s t h
      exact ⟨d, hd⟩
  · intro s t d h hd
    obtain ⟨d', hd', hs, h1, h2, h3⟩ := main s t h
    rw [hd] at hd'
    simp only [Except.ok.injEq] at hd'
    subst hd'
    simp only [Data.size, hs]
    refine ⟨by simp [targetSizes], by simp [targetSizes, List.lookup], by simp [targetSizes, List.lookup], ⟨_, h1, rfl, fun i j k => by simp⟩, ⟨_, h2, rfl, rfl⟩, fun v hv => ⟨_, h3 v hv, rfl, fun _ => rfl⟩⟩

/-- **C82 (points at targets).** Target data of several points for each target: for one list of weights it is made exactly if there is a weight for each point, or only one point ... -/
theorem C82_from_tpoints (coord : ℕ → V) (nan : V) (tpoints weights : Arr V) (q : ℕ) (hq : weights.shape = [q]) (vars : List String) (hf : ∀ v ∈ vars, FreeName v) (hnd : vars.Nodup) :
    ((∃ d, fromTpoints coord nan tpoints weights [] vars = .ok d) ↔ ∃ s t p, tpoints.shape = [s, t, p, 3] ∧ (q = p ∨ p = 1)) ∧
    ∀ s t p d, tpoints.shape = [s, t, p, 3] → fromTpoints coord nan tpoints weights [] vars = .ok d →
      d.size "state" = some s ∧ d.size "target" = some t ∧ d.size "target_point" = some q ∧
      d.entries.lookup "targets" = some ⟨tpoints, some ["state", "target", "target_point", "xyh"]⟩ ∧ d.entries.lookup "tpoint_weights" = some ⟨weights, some ["target_point"]⟩ ∧
      ∀ v ∈ vars, ∃ e, d.entries.lookup v = some e ∧ e.arr.shape = [s, t, p] ∧ ∀ idx, e.arr.val idx = nan := by
  have main : ∀ s t p, tpoints.shape = [s, t, p, 3] → (q = p ∨ p = 1) → ∃ d, fromTpoints coord nan tpoints weights [] vars = .ok d ∧ d.sizes = targetSizes s t q ∧
      d.entries.lookup "targets" = some ⟨tpoints, some targetDims⟩ ∧
      d.entries.lookup "tpoint_weights" = some ⟨weights, some ["target_point"]⟩ ∧ ∀ v ∈ vars, d.entries.lookup v = some ⟨⟨[s, t, p], fun _ => nan⟩, some ["state", "target", "target_point"]⟩ := by
    intro s t p h hpq
    simp only [fromTpoints, h]
    exact target_create coord s t p q hpq _ _ _ h hq rfl vars hf hnd
  have only : ∀ s t p d, tpoints.shape = [s, t, p, 3] → fromTpoints coord nan tpoints weights [] vars = .ok d → q = p ∨ p = 1 := by
    intro s t p d h hd
    have hb : Built .target coord d := by
      simp only [fromTpoints, h] at hd
      refine .create (es := targetEntries [] tpoints weights ⟨[s, t, p], fun _ => nan⟩ vars) ?_ hd
      rw [targetEntries_eq _ _ _ vars hf hnd]
      simp only [List.map_cons, List.map_map, List.nodup_cons, List.mem_cons, not_or]
      have hid : vars.map (Prod.fst ∘ fun v => (v, (⟨⟨[s, t, p], fun _ => nan⟩, some ["state", "target", "target_point"]⟩ : Entry V))) = vars := by
        simp [Function.comp_def]
      rw [hid]
      refine ⟨⟨by decide, fun hm => ?_⟩, fun hm => ?_, hnd⟩
      · exact hf _ hm (by decide)
      · exact hf _ hm (by decide)
    by_contra hcon
    simp only [not_or] at hcon
    obtain ⟨h1, h2⟩ := hcon
    simp only [fromTpoints, h] at hd
    rw [targetEntries_eq _ _ _ vars hf hnd] at hd
    generalize hem : (vars.map fun v => (v, (⟨⟨[s, t, p], fun _ => nan⟩, some ["state", "target", "target_point"]⟩ : Entry V))) = vs at hd
    unfold createK at hd
    generalize hes : (("targets", (⟨tpoints, some targetDims⟩ : Entry V)) :: ("tpoint_weights", ⟨weights, some ["target_point"]⟩) :: vs) = es at hd
    have l1 : es.lookup "targets" = some ⟨tpoints, some targetDims⟩ := by simp [← hes]
    have l2 : es.lookup "tpoint_weights" = some ⟨weights, some ["target_point"]⟩ := by simp [← hes, List.lookup]
    have c1 : checkSizes [] targetDims tpoints.shape = (targetSizes s t p, none) := by
      rw [h]
      simp [checkSizes, targetDims, targetSizes, insertKey, List.lookup]
    have x1 : extra .target ({ entries := es, sizes := targetSizes s t p, loopDims := ["state", "target"], i0 := none } : Data V) "targets" = none := by
      simp [extra, targetCheck, l1, targetSizes, List.lookup, h]
    have hlk : (targetSizes s t p).lookup "target_point" = some p := by simp [targetSizes, List.lookup]
    have stop : ∃ x, initLoopK .target ({ entries := es, sizes := [], loopDims := ["state", "target"], i0 := none } : Data V) es = .error x := by
      suffices hs : ∀ es0 : List (String × Entry V), es0 = es → ∃ x, initLoopK .target ({ entries := es0, sizes := [], loopDims := ["state", "target"], i0 := none } : Data V) es = .error x from hs es rfl
      intro es0 h0
      rw [← h0] at l1 l2 x1
      simp only [← hes, initLoopK]
      rw [checks_same _ _ _ targetDims _ rfl (by simp [targetDims, h]) l1 c1]
      simp only [x1]
      by_cases hq1 : q = 1
      · have c2 : checkSizes (targetSizes s t p) ["target_point"] weights.shape = (targetSizes s t p, none) := by
          simp only [hq, checkSizes, hlk]
          rw [if_neg h2, if_pos hq1]
        rw [checks_same _ _ _ ["target_point"] _ rfl (by simp [hq]) l2 c2]
        have x2 : extra .target ({ entries := es0, sizes := targetSizes s t p, loopDims := ["state", "target"], i0 := none } : Data V) "tpoint_weights" = some .value := by
          simp [extra, targetCheck, l2, targetSizes, List.lookup, hq, h1]
        simp only [x2]
        exact ⟨_, rfl⟩
      · have c2 : (checkSizes (targetSizes s t p) ["target_point"] weights.shape).2 = some .valueError := by
          simp only [hq, checkSizes, hlk]
          rw [if_neg h2, if_neg hq1, if_pos (Ne.symm h1)]
        have hch : (checks .target ({ entries := es0, sizes := targetSizes s t p, loopDims := ["state", "target"], i0 := none } : Data V) "tpoint_weights" ⟨weights, some ["target_point"]⟩).2 = some (.base .valueError) := by
          have hec := entryChecks_same ({ entries := es0, sizes := targetSizes s t p, loopDims := ["state", "target"], i0 := none } : Data V) "tpoint_weights" ⟨weights, some ["target_point"]⟩ ["target_point"] rfl (by simp [hq]) l2
          simp only [c2] at hec
          simp only [checks, hec]
        cases hcc : checks .target ({ entries := es0, sizes := targetSizes s t p, loopDims := ["state", "target"], i0 := none } : Data V) "tpoint_weights" ⟨weights, some ["target_point"]⟩ with
        | mk a b =>
          rw [hcc] at hch
          simp only at hch
          subst hch
          exact ⟨_, rfl⟩
    obtain ⟨x, hx⟩ := stop
    rw [hx] at hd
    simp at hd
  constructor
  · constructor
    · rintro ⟨d, hd⟩
      have hd' := hd
      unfold fromTpoints at hd'
      split at hd'
      · rename_i s t p h; exact ⟨s, t, p, h, only s t p d h hd⟩
      · simp at hd'
    · rintro ⟨s, t, p, h, hpq⟩
      obtain ⟨d, hd, _⟩ := main s t p h hpq
      exact ⟨d, hd⟩
  · intro s t p d h hd
    obtain ⟨d', hd', hs, h1, h2, h3⟩ := main s t p h (only s t p d h hd)
    rw [hd] at hd'
    simp only [Except.ok.injEq] at hd'
    subst hd'
    simp only [Data.size, hs]
    exact ⟨by simp [targetSizes], by simp [targetSizes, List.lookup], by simp [targetSizes, List.lookup], h1, h2, fun v hv => ⟨_, h3 v hv, rfl, fun _ => rfl⟩⟩

/-- **C82 (finding).** ... so the weights of one point are not checked: with any number of weights the container says that it has so many points for each target, though it has one. -/
theorem C82_weights_unmatched (coord : ℕ → V) (nan : V) (tpoints weights : Arr V) (s t q : ℕ) (h : tpoints.shape = [s, t, 1, 3]) (hq : weights.shape = [q]) :
    ∃ d, fromTpoints coord nan tpoints weights [] [] = .ok d ∧ d.size "target_point" = some q ∧ ∃ e, d.entries.lookup "targets" = some e ∧ e.arr.shape = [s, t, 1, 3] := by
  obtain ⟨h1, h2⟩ := C82_from_tpoints coord nan tpoints weights q hq [] (by simp) List.nodup_nil
  obtain ⟨d, hd⟩ := h1.2 ⟨s, t, 1, h, Or.inr rfl⟩
  obtain ⟨_, _, h3, h4, _⟩ := h2 s t 1 d h hd
  exact ⟨d, hd, h3, _, h4, h⟩

/-! ## Examples -/

/-- farm data with positions: accepted, sliced, and not accepted with swapped dimensions -/
example : (∃ d d' : Data ℕ, createK .farm id [("X", ⟨arr [3, 2], some ["state", "turbine"]⟩), ("Y", ⟨arr [3, 2], some ["state", "turbine"]⟩), ("H", ⟨arr [3, 2], some ["state", "turbine"]⟩)] ["state"] (some 0) = .ok d ∧
      Built .farm id d ∧ (d.entries.lookup "txyh").isSome ∧ d.size "X" = none ∧ getSliceK .farm id d "state" (.range (some 1) none) = .ok d' ∧ Built .farm id d' ∧ d'.size "state" = some 2) ∧
    createK .farm id [("X", ⟨arr [3, 2], some ["turbine", "state"]⟩)] ["state"] (some 0) = .error .value := by
  refine ⟨?_, by rfl⟩
  have hc : ∃ d : Data ℕ, createK .farm id [("X", ⟨arr [3, 2], some ["state", "turbine"]⟩), ("Y", ⟨arr [3, 2], some ["state", "turbine"]⟩), ("H", ⟨arr [3, 2], some ["state", "turbine"]⟩)] ["state"] (some 0) = .ok d ∧
      (d.entries.lookup "txyh").isSome ∧ d.size "X" = none ∧ ∃ d', getSliceK .farm id d "state" (.range (some 1) none) = .ok d' ∧ d'.size "state" = some 2 :=
    ⟨_, rfl, by rfl, by rfl, _, rfl, by rfl⟩
  obtain ⟨d, h1, h2, h3, d', h4, h5⟩ := hc
  exact ⟨d, d', h1, .create (by decide) h1, h2, h3, h4, .slice (.create (by decide) h1) h4, h5⟩

/-- positions of new coordinates are not updated -/
theorem C82_positions_wrong : ∃ d d' : Data ℕ, createK .farm id [("X", ⟨⟨[1, 1], fun _ => 1⟩, some ["state", "turbine"]⟩), ("Y", ⟨arr [1, 1], some ["state", "turbine"]⟩), ("H", ⟨arr [1, 1], some ["state", "turbine"]⟩)] ["state"] (some 0) = .ok d ∧
    addK .farm id d "X" ⟨⟨[1, 1], fun _ => 5⟩, some ["state", "turbine"]⟩ = (d', none) ∧
    (d'.entries.lookup "X").map (fun e => e.arr.val [0, 0]) = some 5 ∧ (d'.entries.lookup "txyh").map (fun e => e.arr.val [0, 0, 0]) = some 1 :=
  ⟨_, _, rfl, rfl, by rfl, by rfl⟩

/-- the order of entries matters: weights first, and the same data is refused -/
theorem C82_order : (∃ d : Data ℕ, createK .target id [("targets", ⟨arr [2, 3, 1, 3], some targetDims⟩), ("tpoint_weights", ⟨arr [5], some ["target_point"]⟩)] ["state", "target"] none = .ok d) ∧
    createK .target id [("tpoint_weights", ⟨arr [5], some ["target_point"]⟩), ("targets", ⟨arr [2, 3, 1, 3], some targetDims⟩)] ["state", "target"] none = .error .value :=
  ⟨⟨_, rfl⟩, by rfl⟩

/-! ## What is accepted -/

lemma add_accepted {k : Kind} (coord : ℕ → V) (d : Data V) (v : String) (e : Entry V) (ds : List String) (hd : e.dims = some ds) (hlen : ds.length = e.arr.shape.length)
    (hfit : ∀ (i : ℕ) (c : String) (n : ℕ), ds[i]? = some c → e.arr.shape[i]? = some n → d.size c = some n)
    (hpos : (d.entries.lookup "txyh").isSome ∨ (v ≠ "X" ∧ d.entries.lookup "X" = none))
    (hex : extra k { d with entries := insertKey v e d.entries } v = none) (hfin : ∀ d' : Data V, d'.sizes = d.sizes → Ext { d with entries := insertKey v e d.entries } d' → final k d' = none) :
    ∃ d', addK k coord d v e = (d', none) ∧ d'.entries.lookup v = some e ∧ d'.sizes = d.sizes := by
  have hs : checkSizes d.sizes ds e.arr.shape = (d.sizes, none) := checkSizes_same _ _ _ hlen fun i c n h1 h2 => ⟨n, hfit i c n h1 h2, Or.inl rfl⟩
  have hv : ({ d with entries := insertKey v e d.entries } : Data V).entries.lookup v = some e := by simp [lookup_insertKey]
  have hc := checks_same (k := k) { d with entries := insertKey v e d.entries } v e ds d.sizes hd hlen hv hs
  have hcomb : combine { d with entries := insertKey v e d.entries } = .ok { d with entries := insertKey v e d.entries } := by
    unfold combine
    rcases hpos with h | ⟨h1, h2⟩
    · have : (({ d with entries := insertKey v e d.entries } : Data V).entries.lookup "txyh").isSome := by
        simp only [lookup_insertKey]
        split
        · rfl
        · exact h
      obtain ⟨x, hx⟩ := Option.isSome_iff_exists.1 this
      rw [hx]
    · have : ({ d with entries := insertKey v e d.entries } : Data V).entries.lookup "X" = none := by
        simp only [lookup_insertKey, if_neg (Ne.symm h1)]; exact h2
      rw [this]
      split <;> simp_all
  have hf := hfin (autoUpdate coord { d with entries := insertKey v e d.entries }) rfl (autoUpdate_ext coord _)
  have hck : checks k { d with entries := insertKey v e d.entries } v e = ({ d with entries := insertKey v e d.entries }, none) := by
    rw [hc]
    exact Prod.ext rfl hex
  refine ⟨autoUpdate coord { d with entries := insertKey v e d.entries }, ?_, ?_, rfl⟩
  · simp only [addK, hck, update, hcomb, hf]
  · rw [autoUpdate_eq]
    exact (coordFold_spec _ _ _ _).1 v e hv

/-- **C82 (accepted).** Farm data accepts each entry whose first two axes are states and turbines and whose axes have the sizes of the container ... -/
theorem C82_farm_accepts (coord : ℕ → V) (d : Data V) (ns nt : ℕ) (h1 : d.size "state" = some ns) (h2 : d.size "turbine" = some nt) (v : String) (e : Entry V) (ds : List String) (rest : List ℕ)
    (hd : e.dims = some ("state" :: "turbine" :: ds)) (hs : e.arr.shape = ns :: nt :: rest) (hlen : ds.length = rest.length) (hfit : ∀ (i : ℕ) (c : String) (n : ℕ), ds[i]? = some c → rest[i]? = some n → d.size c = some n)
    (hpos : (d.entries.lookup "txyh").isSome ∨ (v ≠ "X" ∧ d.entries.lookup "X" = none)) :
    ∃ d', addK .farm coord d v e = (d', none) ∧ d'.entries.lookup v = some e ∧ d'.sizes = d.sizes := by
  refine add_accepted coord d v e _ hd (by simp [hs, hlen]) ?_ hpos ?_ ?_
  · intro i c n hc hn
    rw [hs] at hn
    match i with
    | 0 => simp at hc hn; subst hc; subst hn; exact h1
    | 1 => simp at hc hn; subst hc; subst hn; exact h2
    | i + 2 => exact hfit i c n (by simpa using hc) (by simpa using hn)
  · simp [extra, farmCheck, lookup_insertKey, hs, hd]
  · intro d' hsz _
    simp only [Data.size] at h1 h2
    simp [final, hsz, h1, h2]

/-- **C82 (accepted).** ... target data those whose first three axes are states, targets and points. -/
theorem C82_target_accepts (coord : ℕ → V) (d : Data V) (hb : Both d) (ns nt np : ℕ) (h1 : d.size "state" = some ns) (h2 : d.size "target" = some nt) (h3 : d.size "target_point" = some np) (v : String) (e : Entry V)
    (hv1 : v ≠ "targets") (hv2 : v ≠ "tpoint_weights") (ds : List String) (rest : List ℕ)
    (hd : e.dims = some ("state" :: "target" :: "target_point" :: ds)) (hs : e.arr.shape = ns :: nt :: np :: rest) (hlen : ds.length = rest.length)
    (hfit : ∀ (i : ℕ) (c : String) (n : ℕ), ds[i]? = some c → rest[i]? = some n → d.size c = some n)
    (hpos : (d.entries.lookup "txyh").isSome ∨ (v ≠ "X" ∧ d.entries.lookup "X" = none)) :
    ∃ d', addK .target coord d v e = (d', none) ∧ d'.entries.lookup v = some e ∧ d'.sizes = d.sizes := by
  obtain ⟨x1, hx1⟩ := Option.isSome_iff_exists.1 hb.1
  obtain ⟨x2, hx2⟩ := Option.isSome_iff_exists.1 hb.2
  simp only [Data.size] at h1 h2 h3
  refine add_accepted coord d v e _ hd (by simp [hs, hlen]) ?_ hpos ?_ ?_
  · intro i c n hc hn
    rw [hs] at hn
    match i with
    | 0 => simp at hc hn; subst hc; subst hn; exact h1
    | 1 => simp at hc hn; subst hc; subst hn; exact h2
    | 2 => simp at hc hn; subst hc; subst hn; exact h3
    | i + 3 => exact hfit i c n (by simpa using hc) (by simpa using hn)
  · simp [extra, targetCheck, lookup_insertKey, hs, hd, hv1, hv2, Ne.symm hv1, Ne.symm hv2, hx1, hx2, h2, h3]
  · intro d' hsz hext
    have e1 : (d'.entries.lookup "targets").isSome := hext.names _ (by simp only [lookup_insertKey]; split <;> simp [hx1])
    have e2 : (d'.entries.lookup "tpoint_weights").isSome := hext.names _ (by simp only [lookup_insertKey]; split <;> simp [hx2])
    simp [final, hsz, h1, h2, h3, e1, e2]

end Foxes.Props.DataKinds
