import Verif.Model.CfgDict
import Mathlib.Tactic
/-
Property C85: configuration dictionaries.

Independent specification: `strip` forgets which dictionaries are foxes dictionaries and their names; `follow` looks up a path of keys.
-/
namespace Foxes.Props.CfgDict
open Foxes.CfgDict

mutual
/-- contents only: every dictionary as an ordinary one -/
def strip : Val → Val
  | .leaf x => .leaf x
  | .plain es => .plain (stripE es)
  | .dct _ es => .plain (stripE es)
def stripE : Ents → Ents
  | .nil => .nil
  | .cons k v r => .cons k (strip v) (stripE r)
end

mutual
/-- no ordinary dictionary at any depth -/
def AllDct : Val → Prop
  | .leaf _ => True
  | .plain _ => False
  | .dct _ es => AllDctE es
def AllDctE : Ents → Prop
  | .nil => True
  | .cons _ v r => AllDct v ∧ AllDctE r
end

mutual
/-- foxes dictionaries inside have no ordinary dictionaries inside -/
def Clean : Val → Prop
  | .leaf _ => True
  | .plain es => CleanE es
  | .dct _ es => AllDctE es
def CleanE : Ents → Prop
  | .nil => True
  | .cons _ v r => Clean v ∧ CleanE r
end

mutual
/-- the keys of ordinary dictionaries, down to the foxes dictionaries, are strings -/
def StrKeys : Val → Prop
  | .leaf _ => True
  | .plain es => StrKeysE es
  | .dct _ _ => True
def StrKeysE : Ents → Prop
  | .nil => True
  | .cons k v r => (∃ s, k = .str s) ∧ StrKeys v ∧ StrKeysE r
end

/-- the value at the end of a path of keys -/
def follow : List Key → Val → Option Val
  | [], v => some v
  | k :: ks, .plain es => (es.get k).bind (follow ks)
  | k :: ks, .dct _ es => (es.get k).bind (follow ks)
  | _ :: _, .leaf _ => none

mutual
theorem wrap_strip (v : Val) : ∀ (n : String) (v' : Val), wrap n v = .ok v' → strip v' = strip v ∧ (Clean v → AllDct v') := by
  intro n v' h
  match v with
  | .leaf x => simp [wrap] at h; subst h; exact ⟨rfl, fun _ => trivial⟩
  | .dct m es => simp [wrap] at h; subst h; exact ⟨rfl, fun hc => hc⟩
  | .plain es =>
    cases hc : conv n es with
    | error e => simp [wrap, hc] at h
    | ok es' =>
      simp [wrap, hc] at h
      subst h
      obtain ⟨h1, h2, -⟩ := conv_strip es n es' hc
      exact ⟨by simp [strip, h1], fun hcl => h2 hcl⟩
theorem conv_strip (es : Ents) : ∀ (n : String) (es' : Ents), conv n es = .ok es' → stripE es' = stripE es ∧ (CleanE es → AllDctE es') ∧ es'.keys = es.keys := by
  intro n es' h
  match es with
  | .nil => simp [conv] at h; subst h; exact ⟨rfl, fun _ => trivial, rfl⟩
  | .cons k v r =>
    cases hw : wrap (n ++ "." ++ k.show) v with
    | error e => simp [conv, hw] at h
    | ok v' =>
      cases k with
      | other m => simp [conv, hw] at h
      | str s =>
        cases hc : conv n r with
        | error e => simp [conv, hw, hc] at h
        | ok r' =>
          simp [conv, hw, hc] at h
          subst h
          obtain ⟨a1, a2⟩ := wrap_strip v _ v' hw
          obtain ⟨b1, b2, b3⟩ := conv_strip r n r' hc
          exact ⟨by simp [stripE, a1, b1], fun hcl => ⟨a2 hcl.1, b2 hcl.2⟩, by simp [Ents.keys, b3]⟩
end

mutual
theorem wrap_ok (v : Val) : ∀ n : String, (∃ v', wrap n v = .ok v') ↔ StrKeys v := by
  intro n
  match v with
  | .leaf x => simp [wrap, StrKeys]
  | .dct m es => simp [wrap, StrKeys]
  | .plain es =>
    have := conv_ok es n
    rw [StrKeys, ← this]
    cases hc : conv n es with
    | error e => simp [wrap, hc]
    | ok es' => simp [wrap, hc]
theorem conv_ok (es : Ents) : ∀ n : String, (∃ es', conv n es = .ok es') ↔ StrKeysE es := by
  intro n
  match es with
  | .nil => simp [conv, StrKeysE]
  | .cons k v r =>
    have h1 := wrap_ok v (n ++ "." ++ k.show)
    have h2 := conv_ok r n
    rw [StrKeysE, ← h1, ← h2]
    cases hw : wrap (n ++ "." ++ k.show) v with
    | error e => simp [conv, hw]
    | ok v' =>
      cases k with
      | other m => simp [conv, hw]
      | str s =>
        cases hc : conv n r with
        | error e => simp [conv, hw, hc]
        | ok r' => simp [conv, hw, hc]
end

mutual
theorem wrap_err (v : Val) : ∀ (n : String) e, wrap n v = .error e → e = .type := by
  intro n e h
  match v with
  | .leaf x => simp [wrap] at h
  | .dct m es => simp [wrap] at h
  | .plain es =>
    cases hc : conv n es with
    | error e' => simp [wrap, hc] at h; subst h; exact conv_err es n e' hc
    | ok es' => simp [wrap, hc] at h
theorem conv_err (es : Ents) : ∀ (n : String) e, conv n es = .error e → e = .type := by
  intro n e h
  match es with
  | .nil => simp [conv] at h
  | .cons k v r =>
    cases hw : wrap (n ++ "." ++ k.show) v with
    | error e' => simp [conv, hw] at h; subst h; exact wrap_err v _ e' hw
    | ok v' =>
      cases k with
      | other m => simp [conv, hw] at h; exact h.symm
      | str s =>
        cases hc : conv n r with
        | error e' => simp [conv, hw, hc] at h; subst h; exact conv_err r n e' hc
        | ok r' => simp [conv, hw, hc] at h
end

theorem get_strip (es : Ents) (k : Key) : (stripE es).get k = (es.get k).map strip := by
  match es with
  | .nil => rfl
  | .cons q v r =>
    simp only [stripE, Ents.get]
    by_cases h : q = k
    · simp [h]
    · simp [h, get_strip r k]

theorem follow_strip (ks : List Key) : ∀ v, follow ks (strip v) = (follow ks v).map strip := by
  induction ks with
  | nil => intro v; simp [follow]
  | cons k ks ih =>
    intro v
    cases v with
    | leaf x => simp [strip, follow]
    | plain es =>
      simp only [strip, follow, get_strip]
      cases es.get k with
      | none => rfl
      | some v => exact ih v
    | dct n es =>
      simp only [strip, follow, get_strip]
      cases es.get k with
      | none => rfl
      | some v => exact ih v

theorem strip_leaf (v : Val) (x : ℕ) : strip v = .leaf x ↔ v = .leaf x := by
  cases v <;> simp [strip]

/-! ### C85 -/

theorem update_nil_keys (e : Ents) (hn : e.keys.Nodup) : ∀ d : Ents, (∀ k ∈ e.keys, k ∉ d.keys) → d.update e = d.append e := by
  match e with
  | .nil =>
    intro d _
    have : ∀ d : Ents, d.append .nil = d := by
      intro d
      induction d using Ents.rec (motive_1 := fun _ => True) with
      | leaf => trivial
      | plain => trivial
      | dct => trivial
      | nil => rfl
      | cons k v r _ ih => simp [Ents.append, ih]
    simp [Ents.update, this]
  | .cons k v r =>
    intro d hd
    have hset : ∀ d : Ents, k ∉ d.keys → d.set k v = d.append (.cons k v .nil) ∧ (d.set k v).append r = d.append (.cons k v r) ∧ (∀ q, q ∈ (d.set k v).keys ↔ q ∈ d.keys ∨ q = k) := by
      intro d
      induction d using Ents.rec (motive_1 := fun _ => True) with
      | leaf => trivial
      | plain => trivial
      | dct => trivial
      | nil => intro _; simp [Ents.set, Ents.append, Ents.keys]
      | cons q w s _ ih =>
        intro hk
        simp only [Ents.keys, List.mem_cons, not_or] at hk
        obtain ⟨i1, i2, i3⟩ := ih hk.2
        have hq : q ≠ k := fun h => hk.1 h.symm
        refine ⟨by simp [Ents.set, Ents.append, hq, i1], by simp [Ents.set, Ents.append, hq, i2], ?_⟩
        intro p
        simp [Ents.set, hq, Ents.keys, i3, or_assoc]
    simp only [Ents.keys, List.nodup_cons] at hn
    have hk : k ∉ d.keys := hd k (by simp [Ents.keys])
    obtain ⟨-, h2, h3⟩ := hset d hk
    rw [Ents.update, update_nil_keys r hn.2 (d.set k v), h2]
    intro q hq hc
    rcases (h3 q).1 hc with h | h
    · exact hd q (by simp [Ents.keys, hq]) h
    · subst h; exact hn.1 hq

theorem append_nil (d : Ents) : d.append .nil = d := by
  match d with
  | .nil => rfl
  | .cons k v r => rw [Ents.append, append_nil r]

/-- **C85_new.** A foxes dictionary of one ordinary dictionary with different keys: it can be made exactly if the keys at all levels are strings, otherwise it is a type error; it has the same contents at all levels, keys in the same order; all dictionaries inside are foxes dictionaries. -/
theorem C85_new (es : Ents) (hn : es.keys.Nodup) (name : Option String) :
    ((∃ v, new [es] name .nil = .ok v) ↔ StrKeysE es) ∧
    (∀ e, new [es] name .nil = .error e → e = .type) ∧
    ∀ v, new [es] name .nil = .ok v → strip v = .plain (stripE es) ∧ (CleanE es → AllDct v) ∧ ∃ es', v = .dct (name.getD "Dict") es' ∧ es'.keys = es.keys := by
  cases hc : conv (name.getD "None") es with
  | error e =>
    have : new [es] name .nil = .error e := by simp [new, merge, hc]
    rw [this]
    have hno : ¬StrKeysE es := by rw [← conv_ok es (name.getD "None")]; rintro ⟨x, hx⟩; rw [hc] at hx; cases hx
    exact ⟨by simp [hno], by rintro e' h; cases h; exact conv_err es _ e hc, by simp⟩
  | ok es' =>
    obtain ⟨h1, h2, h3⟩ := conv_strip es _ es' hc
    have hu : Ents.nil.update es' = es' := by
      rw [update_nil_keys es' (h3 ▸ hn) .nil (by simp [Ents.keys])]; rfl
    have : new [es] name .nil = .ok (.dct (name.getD "Dict") es') := by simp [new, merge, hc, convKw, hu, Ents.keys, append_nil]
    rw [this]
    refine ⟨iff_of_true ⟨_, rfl⟩ ((conv_ok es _).1 ⟨es', hc⟩), by simp, ?_⟩
    rintro v hv
    cases hv
    exact ⟨by simp [strip, h1], fun hcl => h2 hcl, es', rfl, h3⟩

/-- **C85_paths.** Along every path of keys the same is found as in the ordinary dictionary: the same opaque values, a dictionary where there was one, nothing where there was nothing. -/
theorem C85_paths (es : Ents) (hn : es.keys.Nodup) (name : Option String) (v : Val) (h : new [es] name .nil = .ok v) (ks : List Key) :
    (∀ x, follow ks v = some (.leaf x) ↔ follow ks (.plain es) = some (.leaf x)) ∧ (follow ks v = none ↔ follow ks (.plain es) = none) := by
  have hs : strip v = strip (.plain es) := by rw [((C85_new es hn name).2.2 v h).1]; rfl
  have key : (follow ks v).map strip = (follow ks (.plain es)).map strip := by rw [← follow_strip, ← follow_strip, hs]
  constructor
  · intro x
    have : ∀ o : Option Val, o = some (.leaf x) ↔ o.map strip = some (.leaf x) := by
      intro o
      cases o with
      | none => simp
      | some w => simp [strip_leaf]
    rw [this, this (follow ks (.plain es)), key]
  · rw [← Option.map_eq_none_iff (f := strip), key, Option.map_eq_none_iff]

theorem get_append (a b : Ents) (k : Key) : (a.append b).get k = (a.get k).or (b.get k) := by
  match a with
  | .nil => simp [Ents.append, Ents.get]
  | .cons q v r =>
    simp only [Ents.append, Ents.get]
    by_cases h : q = k
    · simp [h]
    · simp [h, get_append r b k]

theorem get_set (d : Ents) (k q : Key) (v : Val) : (d.set k v).get q = if k = q then some v else d.get q := by
  match d with
  | .nil => simp [Ents.set, Ents.get]
  | .cons p w r =>
    by_cases h : p = k
    · subst h
      simp only [Ents.set, if_true, Ents.get]
      by_cases hq : p = q <;> simp [hq]
    · simp only [Ents.set, h, if_false, Ents.get, get_set r k q v]
      by_cases hq : p = q
      · subst hq; simp [Ne.symm h]
      · simp [hq]

theorem get_none (e : Ents) (k : Key) : e.get k = none ↔ k ∉ e.keys := by
  match e with
  | .nil => simp [Ents.get, Ents.keys]
  | .cons p v r =>
    simp only [Ents.get, Ents.keys, List.mem_cons, not_or]
    by_cases h : p = k
    · simp [h]
    · simp [h, get_none r k, Ne.symm h]

theorem get_update (e : Ents) (hn : e.keys.Nodup) : ∀ (d : Ents) (q : Key), (d.update e).get q = (e.get q).or (d.get q) := by
  match e with
  | .nil => intro d q; simp [Ents.update, Ents.get]
  | .cons k v r =>
    intro d q
    simp only [Ents.keys, List.nodup_cons] at hn
    rw [Ents.update, get_update r hn.2, get_set]
    simp only [Ents.get]
    by_cases h : k = q
    · subst h
      rw [(get_none r k).2 hn.1]; simp
    · simp [h]

/-- the entry of one of the merged dictionaries -/
theorem get_conv (es : Ents) : ∀ (n : String) (es' : Ents), conv n es = .ok es' → ∀ k, (es.get k = none → es'.get k = none) ∧ ∀ v, es.get k = some v → ∃ v', es'.get k = some v' ∧ wrap (n ++ "." ++ k.show) v = .ok v' := by
  intro n es' h k
  match es with
  | .nil => simp [conv] at h; subst h; simp [Ents.get]
  | .cons p v r =>
    cases hw : wrap (n ++ "." ++ p.show) v with
    | error e => simp [conv, hw] at h
    | ok v' =>
      cases p with
      | other m => simp [conv, hw] at h
      | str s =>
        cases hc : conv n r with
        | error e => simp [conv, hw, hc] at h
        | ok r' =>
          simp [conv, hw, hc] at h
          subst h
          obtain ⟨i1, i2⟩ := get_conv r n r' hc k
          by_cases hk : Key.str s = k
          · subst hk; simp [Ents.get, hw]
          · simp only [Ents.get, hk, if_false]; exact ⟨i1, i2⟩

/-- **C85_merge.** Of two dictionaries the later one wins: an entry of the second is taken, else the one of the first; nested ones are not merged, their names are those of the dictionary and the key. -/
theorem C85_merge (a b : Ents) (hb : b.keys.Nodup) (ha : a.keys.Nodup) (name : String) (m : String) (es : Ents) (h : new [a, b] (some name) .nil = .ok (.dct m es)) (k : Key) :
    m = name ∧ ((a.get k = none ∧ b.get k = none) → es.get k = none) ∧
    ∀ v, ((b.get k).or (a.get k)) = some v → ∃ v', es.get k = some v' ∧ wrap (name ++ "." ++ k.show) v = .ok v' := by
  cases hca : conv name a with
  | error e => simp [new, merge, hca] at h
  | ok a' =>
    cases hcb : conv name b with
    | error e => simp [new, merge, hca, hcb] at h
    | ok b' =>
      simp [new, merge, hca, hcb, convKw, Ents.keys, append_nil] at h
      obtain ⟨rfl, rfl⟩ := h
      obtain ⟨a1, a2⟩ := get_conv a name a' hca k
      obtain ⟨b1, b2⟩ := get_conv b name b' hcb k
      have hka := (conv_strip a name a' hca).2.2
      have hkb := (conv_strip b name b' hcb).2.2
      have hg : ((Ents.nil.update a').update b').get k = (b'.get k).or (a'.get k) := by
        rw [get_update b' (hkb ▸ hb), get_update a' (hka ▸ ha)]; simp [Ents.get]
      refine ⟨rfl, ?_, ?_⟩
      · rintro ⟨h1, h2⟩; rw [hg, a1 h1, b1 h2]; rfl
      · intro v hv
        rw [hg]
        cases hbk : b.get k with
        | some w =>
          rw [hbk] at hv; simp at hv; subst hv
          obtain ⟨v', h1, h2⟩ := b2 w hbk
          exact ⟨v', by simp [h1], h2⟩
        | none =>
          rw [hbk] at hv; simp at hv
          obtain ⟨v', h1, h2⟩ := a2 v hv
          exact ⟨v', by simp [b1 hbk, h1], h2⟩

/-- **C85_clash.** A key given both in a dictionary and as a keyword is a type error. -/
theorem C85_clash (a kw a' kw' : Ents) (hn : a.keys.Nodup) (name : Option String) (h1 : conv (name.getD "None") a = .ok a') (h2 : convKw kw = .ok kw') (k : Key) (ha : k ∈ a.keys) (hk : k ∈ kw'.keys) :
    new [a] name kw = .error .type := by
  have h3 := (conv_strip a _ a' h1).2.2
  have hu : Ents.nil.update a' = a' := by
    rw [update_nil_keys a' (h3 ▸ hn) .nil (by simp [Ents.keys])]; rfl
  have : (kw'.keys.any fun k => (a'.get k).isSome) = true := by
    rw [List.any_eq_true]
    refine ⟨k, hk, ?_⟩
    rw [← Option.not_isNone, Bool.not_eq_true', ← Bool.not_eq_true, Option.isNone_iff_eq_none, get_none, h3]
    simpa using ha
  simp [new, merge, h1, h2, hu, this]

/-- **C85_kw.** Keyword arguments alone: the same values under the same keys, a nested dictionary is named by its key alone. -/
theorem C85_kw (kw : Ents) : ∀ kw', convKw kw = .ok kw' → kw'.keys = kw.keys ∧ stripE kw' = stripE kw ∧
    ∀ (k : Key) v, kw.get k = some v → ∃ v', kw'.get k = some v' ∧ wrap k.show v = .ok v' := by
  match kw with
  | .nil => intro kw' h; simp [convKw] at h; subst h; simp [Ents.keys, stripE, Ents.get]
  | .cons k v r =>
    intro kw' h
    cases hw : wrap k.show v with
    | error e => simp [convKw, hw] at h
    | ok v' =>
      cases hc : convKw r with
      | error e => simp [convKw, hw, hc] at h
      | ok r' =>
        simp [convKw, hw, hc] at h
        subst h
        obtain ⟨i1, i2, i3⟩ := C85_kw r r' hc
        refine ⟨by simp [Ents.keys, i1], by simp [stripE, i2, (wrap_strip v _ v' hw).1], ?_⟩
        intro q w hq
        simp only [Ents.get] at hq ⊢
        by_cases h : k = q
        · subst h; simp at hq; subst hq; exact ⟨v', by simp, hw⟩
        · simp [h] at hq; simp only [h, if_false]; exact i3 q w hq

/-- **C85_names** (finding). Without a name, the dictionary calls itself Dict, but nested dictionaries are named None.key. -/
theorem C85_names (k : String) (es es' : Ents) (h : conv ("None." ++ k) es = .ok es') :
    new [.cons (.str k) (.plain es) .nil] none .nil = .ok (.dct "Dict" (.cons (.str k) (.dct ("None." ++ k) es') .nil)) := by
  simp [new, merge, conv, Key.show, wrap, h, convKw, Ents.update, Ents.set, Ents.keys, Ents.append]

/-! ### get_item and pop_item -/

/-- **C85_get.** The entry is returned, a nested ordinary dictionary as foxes dictionary with the same contents; without entry the default, and a key error if there is none. The default is not used if there is an entry. -/
theorem C85_get (name : String) (es : Ents) (key : Key) :
    (∀ d, getItem name es key d = .error .key ↔ es.get key = none ∧ d = []) ∧
    (∀ v d r, es.get key = some v → getItem name es key d = .ok r → strip r = strip v) ∧
    (∀ d r, es.get key = none → getItem name es key [d] = .ok r → strip r = strip d) ∧
    (∀ v, es.get key = some v → StrKeys v → ∃ r, getItem name es key [] = .ok r) ∧
    (∀ d v d', es.get key = some v → getItem name es key [d] = getItem name es key [d']) := by
  refine ⟨?_, ?_, ?_, ?_, ?_⟩
  · intro d
    match d with
    | [] =>
      simp only [getItem]
      cases hg : es.get key with
      | none => simp
      | some v => simp; intro h; have := wrap_err v _ _ h; cases this
    | [d] => simp [getItem]; intro h; have := wrap_err _ _ _ h; cases this
    | a :: b :: c => simp [getItem]
  · intro v d r hv h
    match d with
    | [] => simp [getItem, hv] at h; exact (wrap_strip v _ r h).1
    | [d] => simp [getItem, hv] at h; exact (wrap_strip v _ r h).1
    | a :: b :: c => simp [getItem] at h
  · intro d r hv h
    simp [getItem, hv] at h; exact (wrap_strip d _ r h).1
  · intro v hv hk
    obtain ⟨r, hr⟩ := (wrap_ok v (name ++ "." ++ key.show)).2 hk
    exact ⟨r, by simp [getItem, hv, hr]⟩
  · intro d v d' hv; simp [getItem, hv]

/-- **C85_get_dict.** What is returned is never an ordinary dictionary; a foxes dictionary is returned as it is, with its name. -/
theorem C85_get_dict (name : String) (es : Ents) (key : Key) (d : List Val) (r : Val) (h : getItem name es key d = .ok r) :
    (∀ e, r ≠ .plain e) ∧ (∀ n e, es.get key = some (.dct n e) → r = .dct n e) ∧ (∀ e, es.get key = some (.plain e) → ∃ e', r = .dct (name ++ "." ++ key.show) e') := by
  have hw : ∃ v, wrap (name ++ "." ++ key.show) v = .ok r ∧ ∀ w, es.get key = some w → v = w := by
    match d with
    | [] =>
      cases hg : es.get key with
      | none => simp [getItem, hg] at h
      | some v => simp [getItem, hg] at h; exact ⟨v, h, by rintro w h; cases h; rfl⟩
    | [d] => refine ⟨_, by simpa [getItem] using h, ?_⟩; intro w hw; simp [hw]
    | a :: b :: c => simp [getItem] at h
  obtain ⟨v, hv, hvw⟩ := hw
  refine ⟨?_, ?_, ?_⟩
  · rintro e rfl
    cases v with
    | leaf x => simp [wrap] at hv
    | dct n e => simp [wrap] at hv
    | plain e' => cases hc : conv (name ++ "." ++ key.show) e' <;> simp [wrap, hc] at hv
  · intro n e hg
    obtain rfl := hvw _ hg
    simp [wrap] at hv; exact hv.symm
  · intro e hg
    obtain rfl := hvw _ hg
    cases hc : conv (name ++ "." ++ key.show) e with
    | error e => simp [wrap, hc] at hv
    | ok e' => simp [wrap, hc] at hv; exact ⟨e', hv.symm⟩

theorem get_del (d : Ents) (hn : d.keys.Nodup) (k q : Key) : (d.del k).get q = if k = q then none else d.get q := by
  match d with
  | .nil => simp [Ents.del, Ents.get]
  | .cons p w r =>
    simp only [Ents.keys, List.nodup_cons] at hn
    by_cases h : p = k
    · subst h
      simp only [Ents.del, if_true, Ents.get]
      by_cases hq : p = q
      · subst hq; simp [(get_none r p).2 hn.1]
      · simp [hq]
    · simp only [Ents.del, h, if_false, Ents.get, get_del r hn.2 k q]
      by_cases hq : p = q
      · subst hq; simp [Ne.symm h]
      · simp [hq]

/-- **C85_pop.** The same value as without removal; then the key is gone and all others are as before. -/
theorem C85_pop (name : String) (es : Ents) (hn : es.keys.Nodup) (key : Key) (d : List Val) :
    (∀ e, popItem name es key d = .error e ↔ getItem name es key d = .error e) ∧
    ∀ r es', popItem name es key d = .ok (r, es') → getItem name es key d = .ok r ∧ ∀ q, es'.get q = if key = q then none else es.get q := by
  unfold popItem
  cases h : getItem name es key d with
  | error e => simp
  | ok v =>
    refine ⟨by simp, ?_⟩
    intro r es' hr
    simp only [Except.ok.injEq, Prod.mk.injEq] at hr
    obtain ⟨rfl, rfl⟩ := hr
    refine ⟨rfl, ?_⟩
    intro q
    cases hg : es.get key with
    | some w => simp [get_del es hn]
    | none =>
      simp
      intro hq; subst hq; exact hg

/-- the hypotheses can be met: nested dictionaries -/
example : new [.cons (.str "a") (.plain (.cons (.str "b") (.plain (.cons (.str "c") (.leaf 1) .nil)) .nil)) (.cons (.str "d") (.leaf 2) .nil)] (some "n") .nil =
    .ok (.dct "n" (.cons (.str "a") (.dct "n.a" (.cons (.str "b") (.dct "n.a.b" (.cons (.str "c") (.leaf 1) .nil)) .nil)) (.cons (.str "d") (.leaf 2) .nil))) := by
  simp [new, merge, conv, wrap, Key.show, Ents.update, Ents.set, convKw, Ents.keys, Ents.append]
/-- a key that is not a string -/
example : new [.cons (.other 3) (.leaf 1) .nil] none .nil = .error .type := by simp [new, merge, conv, wrap]

end Foxes.Props.CfgDict
