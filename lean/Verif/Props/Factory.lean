import Verif.Proof.Factory
import Mathlib.Tactic.NormNum
import Mathlib.Tactic.Positivity
import Mathlib.Tactic.FieldSimp
/-
C41: names of parametrised models.
-/
namespace Foxes.Props.Factory
open Foxes.Factory

/-! ### Templates -/

/-- the text of a template: `p0<v1>p1<v2>p2 ...` -/
def templateText : List Str → List Str → Str
  | p :: ps, v :: vs => p ++ '<' :: v ++ '>' :: templateText ps vs
  | ps, _ => ps.flatten

/-- no angle bracket -/
def NoBracket (s : Str) : Prop := '<' ∉ s ∧ '>' ∉ s

/-- A proper template: one more text than variables, no brackets in names and texts (only the last text may contain a `<`), a separator between any
two variables, and with several variables also a text in front of the first. -/
structure Proper (t : Template) : Prop where
  len : t.pre.length = t.vars.length + 1
  vars : ∀ v ∈ t.vars, NoBracket v
  texts : ∀ p ∈ t.pre.dropLast, NoBracket p
  last : ∀ p, t.pre.getLast? = some p → '>' ∉ p
  sep : ∀ p ∈ t.pre.dropLast.drop 1, p ≠ []
  front : 1 < t.vars.length → t.pre.head? ≠ some []

lemma parseParts_iff (first : Bool) (s : Str) (t : Template) :
    parseParts first (pySplit '>' s) = .ok t ↔ s = templateText t.pre t.vars ∧ t.pre.length = t.vars.length + 1 ∧
      (∀ v ∈ t.vars, NoBracket v) ∧ (∀ p ∈ t.pre.dropLast, NoBracket p) ∧ (∀ p, t.pre.getLast? = some p → '>' ∉ p) ∧
      (∀ p ∈ t.pre.dropLast.drop (if first then 1 else 0), p ≠ []) := by
  obtain ⟨pre, vars⟩ := t
  simp only
  induction vars generalizing s pre first with
  | nil =>
    constructor
    · intro h
      rcases pySplit_cases '>' s with ⟨hs, hsp⟩ | ⟨a, r, ha, rfl, hsp⟩
      · rw [hsp] at h
        simp only [parseParts, Except.ok.injEq, Template.mk.injEq] at h
        obtain ⟨rfl, _⟩ := h
        refine ⟨by simp [templateText], rfl, by simp, by simp, ?_, by simp⟩
        intro p hp; simp at hp; exact hp ▸ hs
      · rw [hsp] at h
        cases hr : pySplit '>' r with
        | nil => exact absurd hr (pySplit_ne_nil _ _)
        | cons q qs =>
          rw [hr] at h
          simp only [parseParts] at h
          split at h
          · split at h
            · simp at h
            · split at h <;> simp at h
          · simp at h
    · rintro ⟨rfl, hlen, _, _, hlast, _⟩
      match pre, hlen with
      | [p], _ =>
        have : '>' ∉ p := hlast p (by simp)
        simp [templateText, pySplit_nomem _ _ this, parseParts]
  | cons v vars ih =>
    constructor
    · intro h
      rcases pySplit_cases '>' s with ⟨hs, hsp⟩ | ⟨a, r, ha, rfl, hsp⟩
      · rw [hsp] at h
        simp [parseParts] at h
      · rw [hsp] at h
        cases hr : pySplit '>' r with
        | nil => exact absurd hr (pySplit_ne_nil _ _)
        | cons q qs =>
          rw [hr] at h
          simp only [parseParts] at h
          split at h
          · rename_i b w hbw
            split at h
            · simp at h
            · rename_i hne
              split at h
              · rename_i t' ht'
                simp only [Except.ok.injEq, Template.mk.injEq, List.cons.injEq] at h
                obtain ⟨rfl, rfl, rfl⟩ := h
                rw [← hr] at ht'
                obtain ⟨tpre, tvars⟩ := t'
                obtain ⟨h1, h2, h3, h4, h5, h6⟩ := (ih false r tpre).1 ht'
                obtain ⟨rfl, hb, hw⟩ := pySplit_pair _ _ _ _ hbw
                have hne' : tpre ≠ [] := by intro e; simp [e] at h2
                have hdl : (b :: tpre).dropLast = b :: tpre.dropLast := List.dropLast_cons_of_ne_nil hne'
                have ha' : '>' ∉ b ∧ '>' ∉ w := by
                  simp only [List.mem_append, List.mem_cons, not_or] at ha
                  exact ⟨ha.1, ha.2.2⟩
                refine ⟨by simp [templateText, h1], by simp [h2], ?_, ?_, ?_, ?_⟩
                · intro x hx
                  rcases List.mem_cons.1 hx with rfl | hx
                  · exact ⟨hw, ha'.2⟩
                  · exact h3 x hx
                · rw [hdl]
                  intro x hx
                  rcases List.mem_cons.1 hx with rfl | hx
                  · exact ⟨hb, ha'.1⟩
                  · exact h4 x hx
                · intro p hp
                  apply h5
                  cases tpre with
                  | nil => exact absurd rfl hne'
                  | cons x xs => simpa [List.getLast?_cons_cons] using hp
                · rw [hdl]
                  intro x hx
                  cases first with
                  | true => simp at hx; exact h6 x (by simpa using hx)
                  | false =>
                    simp at hx hne
                    rcases hx with rfl | hx
                    · exact hne
                    · exact h6 x (by simpa using hx)
              · simp at h
          · simp at h
    · rintro ⟨rfl, hlen, hv, hp, hl, hs⟩
      cases pre with
      | nil => simp at hlen
      | cons p ps =>
        have hne' : ps ≠ [] := by intro e; simp [e] at hlen
        have hdl : (p :: ps).dropLast = p :: ps.dropLast := List.dropLast_cons_of_ne_nil hne'
        rw [hdl] at hp hs
        have hpb : NoBracket p := hp p (by simp)
        have hvb : NoBracket v := hv v (by simp)
        have hgt : '>' ∉ p ++ '<' :: v := by
          simp only [List.mem_append, List.mem_cons, not_or]
          exact ⟨hpb.2, by decide, hvb.2⟩
        have e1 : pySplit '>' (templateText (p :: ps) (v :: vars)) = (p ++ '<' :: v) :: pySplit '>' (templateText ps vars) := by
          simp only [templateText]
          have := pySplit_append '>' (p ++ '<' :: v) (templateText ps vars) hgt
          simpa using this
        have e2 : pySplit '<' (p ++ '<' :: v) = [p, v] := by
          rw [pySplit_append _ _ _ hpb.1, pySplit_nomem _ _ hvb.1]
        have hrec := (ih false (templateText ps vars) ps).2 ⟨rfl, by simpa using hlen, fun x hx => hv x (by simp [hx]), fun x hx => hp x (by simp [hx]),
          fun x hx => hl x (by
            cases ps with
            | nil => exact absurd rfl hne'
            | cons a as => simpa [List.getLast?_cons_cons] using hx),
          fun x hx => by
            apply hs
            cases first <;> simp at hx ⊢
            · exact Or.inr hx
            · exact hx⟩
        rw [e1]
        cases hr : pySplit '>' (templateText ps vars) with
        | nil => exact absurd hr (pySplit_ne_nil _ _)
        | cons q qs =>
          rw [hr] at hrec
          simp only [parseParts, e2, hrec]
          have : ¬ (first = false ∧ p = []) := by
            rintro ⟨rfl, rfl⟩
            exact hs [] (by simp) rfl
          simp [this]

/-- A template is accepted exactly if it is the text of a proper list of texts and variables, and then these are what the factory works with. -/
theorem C41_template (s : Str) (t : Template) : parseTemplate s = .ok t ↔ s = templateText t.pre t.vars ∧ Proper t := by
  unfold parseTemplate
  constructor
  · intro h
    split at h
    · simp at h
    · rename_i r hr
      split at h
      · simp at h
      · rename_i hc
        simp only [Except.ok.injEq] at h
        subst h
        obtain ⟨h1, h2, h3, h4, h5, h6⟩ := (parseParts_iff true s r).1 hr
        refine ⟨h1, h2, h3, h4, h5, by simpa using h6, ?_⟩
        intro hl he
        apply hc
        refine ⟨hl, ?_⟩
        cases hp : r.pre with
        | nil => rw [hp] at he; simp at he
        | cons a as =>
          rw [hp] at he
          simp at he
          obtain ⟨n, hn⟩ : ∃ n, r.vars.length - 1 = n + 1 := ⟨r.vars.length - 2, by omega⟩
          rw [hn]
          simp [he]
  · rintro ⟨h1, hP⟩
    have := (parseParts_iff true s t).2 ⟨h1, hP.len, hP.vars, hP.texts, hP.last, by simpa using hP.sep⟩
    rw [this]
    simp only
    rw [if_neg]
    rintro ⟨hl, ha⟩
    rw [List.any_eq_true] at ha
    obtain ⟨x, hx, hxe⟩ := ha
    simp at hxe
    subst hxe
    rw [List.mem_take_iff_getElem] at hx
    obtain ⟨i, hi, hxi⟩ := hx
    have hlen := hP.len
    cases i with
    | zero =>
      apply hP.front hl
      rw [List.head?_eq_getElem?, List.getElem?_eq_getElem (by omega), hxi]
    | succ i =>
      refine hP.sep [] ?_ rfl
      rw [List.mem_iff_getElem?]
      refine ⟨i, ?_⟩
      rw [List.getElem?_drop, List.getElem?_dropLast]
      have : 1 + i < t.pre.length - 1 := by omega
      rw [if_pos this, Nat.add_comm 1 i, List.getElem?_eq_getElem (by omega), hxi]

/-- a template of the model book -/
example : parseTemplate "kTI_amb_<kTI>_<kb>".toList = .ok ⟨["kTI_amb_".toList, "_".toList, []], ["kTI".toList, "kb".toList]⟩ := by decide +kernel

/-- a bracket that is opened but not closed is not noticed: the template is taken as a name without variables -/
theorem C41_unclosed_bracket_accepted : parseTemplate "grid<n2".toList = .ok ⟨["grid<n2".toList], []⟩ := by decide +kernel

/-! ### Names -/

/-- the name with the values `ws` in the places of the variables -/
def nameOf (t : Template) (ws : List Str) : Str := t.pre.headD [] ++ (List.zipWith (· ++ ·) ws (t.pre.drop 1)).flatten

/-- In the name of values `ws` no text that follows a variable occurs before its place. -/
def Unambiguous (t : Template) (ws : List Str) : Prop := List.Forall₂ EndsAt ws (t.pre.drop 1)

/-- Exactly these names match a template, with exactly these values: one value for each variable, such that no separator occurs before its place, and the
name is the one with the values put in, followed by anything if the template does not end with a variable. -/
theorem C41_match (s : Str) (t : Template) (ht : parseTemplate s = .ok t) (name : Str) (ws : List Str) :
    matchName t name = some ws ↔ ws.length = t.vars.length ∧ Unambiguous t ws ∧
      ∃ rest, name = nameOf t ws ++ rest ∧ (t.vars ≠ [] → t.pre.getLast? = some [] → rest = []) := by
  obtain ⟨_, hP⟩ := (C41_template s t).1 ht
  obtain ⟨pre, vars⟩ := t
  have hlen := hP.len
  have hsep := hP.sep
  simp only at hlen hsep
  cases pre with
  | nil => simp at hlen
  | cons p ps =>
    have hlen' : ps.length = vars.length := by simpa using hlen
    have hwf : ∀ q ∈ ps.dropLast, q ≠ [] := by
      intro q hq
      apply hsep
      cases ps with
      | nil => simp at hq
      | cons a as => simpa [List.dropLast] using hq
    have hlast : (vars ≠ [] → (p :: ps).getLast? = some [] → (∀ r : Str, r = r)) := by intros; rfl
    have key : ∀ r : Str, matchGo ps r = some ws ↔ ws.length = vars.length ∧ List.Forall₂ EndsAt ws ps ∧
        ∃ rest, r = (List.zipWith (· ++ ·) ws ps).flatten ++ rest ∧ (vars ≠ [] → (p :: ps).getLast? = some [] → rest = []) := by
      intro r
      rw [matchGo_iff ps hwf]
      constructor
      · rintro ⟨hF, junk, h1, h2⟩
        refine ⟨by rw [hF.length_eq, hlen'], hF, junk, h1, ?_⟩
        intro hv hl
        apply h2
        cases ps with
        | nil => simp at hlen'; exact absurd (List.length_eq_zero_iff.mp hlen'.symm) hv
        | cons a as => simpa [List.getLast?_cons_cons] using hl
      · rintro ⟨hl, hF, junk, h1, h2⟩
        refine ⟨hF, junk, h1, ?_⟩
        intro hl
        apply h2
        · intro e; subst e
          simp at hlen'; subst hlen'
          simp at hl
        · cases ps with
          | nil => simp at hl
          | cons a as => simpa [List.getLast?_cons_cons] using hl
    simp only [matchName, nameOf, Unambiguous, List.headD_cons, List.drop_one, List.tail_cons]
    by_cases hp : p = []
    · subst hp
      simpa using key name
    · rw [if_neg hp]
      constructor
      · intro h
        cases hf : find p name with
        | none => rw [hf] at h; simp at h
        | some i =>
          rw [hf] at h
          cases i with
          | succ i => simp at h
          | zero =>
            simp only at h
            obtain ⟨⟨a, b, hn, ha⟩, _⟩ := (find_some p hp name 0).1 hf
            have : a = [] := List.length_eq_zero_iff.mp ha
            subst this
            have hd : name.drop p.length = b := by rw [hn]; simp
            rw [hd] at h
            obtain ⟨h1, h2, rest, h3, h4⟩ := (key b).1 h
            exact ⟨h1, h2, rest, by rw [hn, h3]; simp, h4⟩
      · rintro ⟨h1, h2, rest, h3, h4⟩
        have hf : find p name = some 0 := by
          rw [find_some p hp]
          exact ⟨⟨[], (List.zipWith (· ++ ·) ws ps).flatten ++ rest, by rw [h3]; simp, rfl⟩, by simp⟩
        rw [hf]
        simp only
        have hd : name.drop p.length = (List.zipWith (· ++ ·) ws ps).flatten ++ rest := by rw [h3, List.append_assoc]; simp
        rw [hd]
        exact (key _).2 ⟨h1, h2, rest, rfl, h4⟩

/-- Round trip: the name built from given values is parsed to these values, if no separator occurs in a value before its place. -/
theorem C41_round_trip (s : Str) (t : Template) (ht : parseTemplate s = .ok t) (ws : List Str) (hl : ws.length = t.vars.length)
    (h : Unambiguous t ws) : matchName t (nameOf t ws) = some ws :=
  (C41_match s t ht _ ws).2 ⟨hl, h, [], by simp, fun _ _ => rfl⟩

/-- A value in front of a separator that starts with a character which occurs only once in it (all separators of the model book start with their only
underscore) is recovered unless it contains the separator. -/
theorem C41_separator (c : Char) (q w : Str) (hq : c ∉ q) (h : ¬ (c :: q) <:+: w) : EndsAt w (c :: q) := endsAt_of_not_infix c q w hq h

/-- a name of the model book, round trip -/
example : let t : Template := ⟨["Jensen_".toList, "_ka".toList, "_kb".toList, []], ["superposition".toList, "ka".toList, "kb".toList]⟩
    parseTemplate "Jensen_<superposition>_ka<ka>_kb<kb>".toList = .ok t ∧
    nameOf t ["linear_amb".toList, "02".toList, "001".toList] = "Jensen_linear_amb_ka02_kb001".toList ∧
    matchName t "Jensen_linear_amb_ka02_kb001".toList = some ["linear_amb".toList, "02".toList, "001".toList] := by
  decide +kernel

/-- the hypothesis of the round trip holds for these values -/
example : Unambiguous ⟨["Jensen_".toList, "_ka".toList, "_kb".toList, []], ["superposition".toList, "ka".toList, "kb".toList]⟩
    ["linear_amb".toList, "02".toList, "001".toList] := by
  refine List.Forall₂.cons ?_ (List.Forall₂.cons ?_ (List.Forall₂.cons ?_ List.Forall₂.nil))
  · exact C41_separator '_' "ka".toList _ (by decide) (by decide +kernel)
  · exact C41_separator '_' "kb".toList _ (by decide) (by decide +kernel)
  · intro h; exact absurd rfl h

/-- Names other than those built from the template are accepted: a name without variables matches all its continuations, and a template that ends with a
text any continuation. -/
theorem C41_not_only_template_names :
    (∃ t, parseTemplate "yawed".toList = .ok t ∧ matchName t "yawed_what_ever".toList = some []) ∧
    (∃ t, parseTemplate "level<n>_raw".toList = .ok t ∧ matchName t "level5_rawer".toList = some ["5".toList]) :=
  ⟨⟨⟨["yawed".toList], []⟩, by decide +kernel, by decide +kernel⟩,
   ⟨⟨["level".toList, "_raw".toList], ["n".toList]⟩, by decide +kernel, by decide +kernel⟩⟩

/-! ### Arguments -/

variable {V O : Type}

lemma loop_spec (f : Fac V O) (l : List (Str × Str)) (k0 k : Kwargs V) (h : f.loop l k0 = .ok k) (hnd : (l.map (fun p => f.argOf p.1)).Nodup) :
    (∀ v w, (v, w) ∈ l → ∃ x, f.valOf v w = .ok x ∧ k (f.argOf v) = some x) ∧
    (∀ a, a ∉ l.map (fun p => f.argOf p.1) → k a = k0 a) := by
  induction l generalizing k0 with
  | nil => simp [Fac.loop] at h; subst h; simp
  | cons p l ih =>
    obtain ⟨v, w⟩ := p
    simp only [Fac.loop] at h
    split at h
    · simp at h
    · rename_i x hx
      simp only [List.map_cons, List.nodup_cons] at hnd
      obtain ⟨h1, h2⟩ := ih _ h hnd.2
      refine ⟨?_, ?_⟩
      · intro v' w' hm
        rcases List.mem_cons.1 hm with he | hm
        · obtain ⟨rfl, rfl⟩ := Prod.mk.inj he
          exact ⟨x, hx, by rw [h2 _ hnd.1]; simp [setKw]⟩
        · exact h1 v' w' hm
      · intro a ha
        simp only [List.map_cons, List.mem_cons, not_or] at ha
        rw [h2 a ha.2]
        simp [setKw, ha.1]

lemma updFixed_spec (l : List (Str × V)) (k : Kwargs V) (hnd : (l.map Prod.fst).Nodup) :
    (∀ a x, (a, x) ∈ l → updFixed l k a = some x) ∧ (∀ a, a ∉ l.map Prod.fst → updFixed l k a = k a) := by
  induction l generalizing k with
  | nil => simp [updFixed]
  | cons p l ih =>
    obtain ⟨b, y⟩ := p
    simp only [List.map_cons, List.nodup_cons] at hnd
    obtain ⟨h1, h2⟩ := ih (setKw k b y) hnd.2
    refine ⟨?_, ?_⟩
    · intro a x hm
      rcases List.mem_cons.1 hm with he | hm
      · obtain ⟨rfl, rfl⟩ := Prod.mk.inj he
        simp only [updFixed]
        rw [h2 _ hnd.1]; simp [setKw]
      · exact h1 a x hm
    · intro a ha
      simp only [List.map_cons, List.mem_cons, not_or] at ha
      simp only [updFixed]
      rw [h2 a ha.2]
      simp [setKw, ha.1]

/-- The argument of a variable: the one the user mapped it to, else its own name. -/
theorem C41_argument_names (f : Fac V O) (v a : Str) : f.argOf v = a ↔ f.v2a.lookup v = some a ∨ (f.v2a.lookup v = none ∧ a = v) := by
  unfold Fac.argOf
  cases f.v2a.lookup v <;> simp [eq_comm]

/-- The value of a variable for a text `w`: that of its function, or of its entry in the dictionary of its options, or, without options, the text. -/
theorem C41_option_values (f : Fac V O) (v w : Str) (x : V) : f.valOf v w = .ok x ↔
    (∃ g, f.opts.lookup v = some (.func g) ∧ g w = .ok x) ∨ (∃ l, f.opts.lookup v = some (.dict l) ∧ l.lookup w = some x) ∨
    (f.opts.lookup v = none ∧ x = f.plain w) := by
  unfold Fac.valOf
  cases f.opts.lookup v with
  | none => simp [eq_comm]
  | some o =>
    cases o with
    | func g => simp [Opt.eval]
    | dict l => cases hl : l.lookup w <;> simp [Opt.eval, hl]

/-- A text that is not among the options gives a KeyError, not a ValueError: the lookup does not go on to the next factory. -/
theorem C41_unknown_option (d : FDict V O) (f : Fac V O) (fs : List (Fac V O)) (name v w : Str) (l : List (Str × V)) (hd : d.facs = f :: fs) (hs : d.stored name = none)
    (hv : f.tmpl.vars = [v]) (hm : matchName f.tmpl name = some [w]) (ho : f.opts.lookup v = some (.dict l)) (hw : l.lookup w = none) :
    (d.getItem name).1 = .error .keyError := by
  simp [FDict.getItem, hs, hd, firstFac, Fac.construct, Fac.pars, hm, hv, Fac.loop, Fac.valOf, ho, Opt.eval, hw]

/-- The constructor is called with: the fixed arguments of the factory; for each variable whose argument is not fixed, the value its option gives for the
text in the name; and nothing else. -/
theorem C41_arguments (f : Fac V O) (name : Str) (ws : List Str) (k : Kwargs V) (hm : matchName f.tmpl name = some ws) (hlen : ws.length = f.tmpl.vars.length)
    (hk : f.pars name = .ok k) (hnd : (f.tmpl.vars.map f.argOf).Nodup) (hfx : (f.fixed.map Prod.fst).Nodup) :
    (∀ a x, (a, x) ∈ f.fixed → k a = some x) ∧
    (∀ (i : ℕ) v w, f.tmpl.vars[i]? = some v → ws[i]? = some w → f.argOf v ∉ f.fixed.map Prod.fst →
      ∃ x, f.valOf v w = .ok x ∧ k (f.argOf v) = some x) ∧
    (∀ a, a ∉ f.fixed.map Prod.fst → a ∉ f.tmpl.vars.map f.argOf → k a = none) := by
  unfold Fac.pars at hk
  rw [hm] at hk
  simp only at hk
  split at hk
  · simp at hk
  · rename_i k1 hk1
    simp only [Except.ok.injEq] at hk
    subst hk
    have hmap : (f.tmpl.vars.zip ws).map (fun p => f.argOf p.1) = f.tmpl.vars.map f.argOf := by
      rw [← List.map_fst_zip (l₁ := f.tmpl.vars) (l₂ := ws) (by omega), List.map_map]
      rw [List.map_fst_zip (by omega)]
      rfl
    obtain ⟨h1, h2⟩ := loop_spec f _ _ _ hk1 (by rw [hmap]; exact hnd)
    obtain ⟨h3, h4⟩ := updFixed_spec f.fixed k1 hfx
    refine ⟨h3, ?_, ?_⟩
    · intro i v w hv hw hn
      have hmem : (v, w) ∈ f.tmpl.vars.zip ws := by
        rw [List.mem_iff_getElem?]
        exact ⟨i, by rw [List.getElem?_zip_eq_some]; exact ⟨hv, hw⟩⟩
      obtain ⟨x, hx, hkx⟩ := h1 v w hmem
      exact ⟨x, hx, by rw [h4 _ hn, hkx]⟩
    · intro a ha hb
      rw [h4 a ha, h2 a (by rw [hmap]; exact hb)]

/-! ### The dictionary -/

/-- Stored entries win over all factories. -/
theorem C41_stored_first (d : FDict V O) (key : Str) (o : ℕ × O) (h : d.stored key = some o) : d.getItem key = (.ok o, d) := by
  simp [FDict.getItem, h]

lemma firstFac_ok (key : Str) (fs : List (Fac V O)) (o : O) : firstFac key fs = .ok o ↔
    ∃ (i : ℕ) (f : Fac V O), fs[i]? = some f ∧ f.construct key = .ok o ∧ ∀ j < i, ∀ g : Fac V O, fs[j]? = some g → g.construct key = .error .valueError := by
  induction fs with
  | nil => simp [firstFac]
  | cons f fs ih =>
    simp only [firstFac]
    constructor
    · intro h
      split at h
      · rename_i o' ho
        simp at h; subst h
        exact ⟨0, f, rfl, ho, by simp⟩
      · rename_i he
        obtain ⟨i, g, hg, hgo, hj⟩ := ih.1 h
        refine ⟨i + 1, g, by simpa using hg, hgo, ?_⟩
        intro j hji g' hg'
        cases j with
        | zero => simp at hg'; exact hg' ▸ he
        | succ j => exact hj j (by omega) g' (by simpa using hg')
      · simp at h
    · rintro ⟨i, g, hg, hgo, hj⟩
      cases i with
      | zero => simp at hg; subst hg; rw [hgo]
      | succ i =>
        have := hj 0 (by omega) f rfl
        rw [this]
        simp only
        exact ih.2 ⟨i, g, by simpa using hg, hgo, fun j hji g' hg' => hj (j + 1) (by omega) g' (by simpa using hg')⟩

lemma firstFac_err (key : Str) (fs : List (Fac V O)) (e : Err) : firstFac key fs = .error e ↔
    (e = .keyError ∧ ∀ g ∈ fs, g.construct key = .error .valueError) ∨
    ∃ (i : ℕ) (f : Fac V O), fs[i]? = some f ∧ f.construct key = .error e ∧ e ≠ .valueError ∧ ∀ j < i, ∀ g : Fac V O, fs[j]? = some g → g.construct key = .error .valueError := by
  induction fs with
  | nil => simp [firstFac]; exact eq_comm
  | cons f fs ih =>
    simp only [firstFac]
    constructor
    · intro h
      split at h
      · simp at h
      · rename_i he
        rcases ih.1 h with ⟨rfl, ha⟩ | ⟨i, g, hg, hge, hne, hj⟩
        · left
          refine ⟨rfl, ?_⟩
          intro g hg
          rcases List.mem_cons.1 hg with rfl | hg
          · exact he
          · exact ha g hg
        · right
          refine ⟨i + 1, g, by simpa using hg, hge, hne, ?_⟩
          intro j hji g' hg'
          cases j with
          | zero => simp at hg'; exact hg' ▸ he
          | succ j => exact hj j (by omega) g' (by simpa using hg')
      · rename_i e' hne he
        simp at h; subst h
        exact Or.inr ⟨0, f, rfl, he, fun h => hne h, by simp⟩
    · rintro (⟨rfl, ha⟩ | ⟨i, g, hg, hge, hne, hj⟩)
      · rw [ha f (by simp)]
        simp only
        exact ih.2 (Or.inl ⟨rfl, fun g hg => ha g (by simp [hg])⟩)
      · cases i with
        | zero =>
          simp at hg; subst hg
          rw [hge]
          cases e <;> simp_all
        | succ i =>
          have := hj 0 (by omega) f rfl
          rw [this]
          simp only
          exact ih.2 (Or.inr ⟨i, g, by simpa using hg, hge, hne, fun j hji g' hg' => hj (j + 1) (by omega) g' (by simpa using hg')⟩)

/-- A key that is not stored gives the object of the first factory, in order, that does not raise a ValueError for it. -/
theorem C41_first_factory (d : FDict V O) (key : Str) (hs : d.stored key = none) (o : O) :
    (∃ n, (d.getItem key).1 = .ok (n, o)) ↔
    ∃ (i : ℕ) (f : Fac V O), d.facs[i]? = some f ∧ f.construct key = .ok o ∧ ∀ j < i, ∀ g : Fac V O, d.facs[j]? = some g → g.construct key = .error .valueError := by
  rw [← firstFac_ok]
  unfold FDict.getItem
  rw [hs]
  simp only
  cases hf : firstFac key d.facs with
  | error e => simp
  | ok o' =>
    by_cases hsc : d.storeCreated = true <;> simp [hsc]

/-- A lookup fails with the exception of the first factory that raises something else than a ValueError, and with a KeyError if all raise ValueErrors. -/
theorem C41_lookup_error (d : FDict V O) (key : Str) (e : Err) : (d.getItem key).1 = .error e ↔ d.stored key = none ∧
    ((e = .keyError ∧ ∀ g ∈ d.facs, g.construct key = .error .valueError) ∨
    ∃ (i : ℕ) (f : Fac V O), d.facs[i]? = some f ∧ f.construct key = .error e ∧ e ≠ .valueError ∧ ∀ j < i, ∀ g : Fac V O, d.facs[j]? = some g → g.construct key = .error .valueError) := by
  rw [← firstFac_err]
  unfold FDict.getItem
  cases hs : d.stored key with
  | some o => simp
  | none =>
    simp only
    cases hf : firstFac key d.facs with
    | error e' => simp
    | ok o' => by_cases hsc : d.storeCreated = true <;> simp [hsc]

/-- a failed lookup changes nothing -/
theorem C41_failed_lookup_no_effect (d : FDict V O) (key : Str) (e : Err) (h : (d.getItem key).1 = .error e) : (d.getItem key).2 = d := by
  unfold FDict.getItem at h ⊢
  cases hs : d.stored key with
  | some o => rfl
  | none =>
    simp only [hs] at h ⊢
    cases hf : firstFac key d.facs with
    | error e' => simp
    | ok o' => rw [hf] at h; by_cases hsc : d.storeCreated = true <;> simp [hsc] at h

lemma stored_step (d : FDict V O) (key : Str) (x : ℕ × O) (h : d.stored key = some x) (op : Op V O) (hop : ∀ o, op ≠ .assign key o) :
    (d.step op).stored key = some x := by
  cases op with
  | lookup k =>
    simp only [FDict.step, FDict.getItem]
    cases hs : d.stored k with
    | some o => simpa using h
    | none =>
      simp only
      cases hf : firstFac k d.facs with
      | error e => simpa using h
      | ok o =>
        have hne : key ≠ k := by intro e; rw [e, hs] at h; simp at h
        by_cases hsc : d.storeCreated = true
        · simp [hsc, hne, h]
        · simp [hsc, h]
  | assign k o =>
    have hne : key ≠ k := by intro e; subst e; exact hop o rfl
    simp [FDict.step, FDict.setItem, hne, h]
  | addFac f => simpa [FDict.step, FDict.addFactory] using h

lemma stored_run (l : List (Op V O)) (d : FDict V O) (key : Str) (x : ℕ × O) (h : d.stored key = some x) (hl : ∀ op ∈ l, ∀ o, op ≠ .assign key o) :
    (d.runOps l).stored key = some x := by
  induction l generalizing d with
  | nil => exact h
  | cons op l ih =>
    simp only [FDict.runOps, List.foldl_cons]
    exact ih _ (stored_step d key x h op (hl op (by simp))) (fun op' h' => hl op' (by simp [h']))

/-- Repeated lookups give the very same object, whatever is looked up, assigned to other keys, or added as factory in between. -/
theorem C41_lookup_stable (d : FDict V O) (hst : d.storeCreated = true) (key : Str) (x : ℕ × O) (h : (d.getItem key).1 = .ok x) (l : List (Op V O))
    (hl : ∀ op ∈ l, ∀ o, op ≠ .assign key o) : (((d.getItem key).2.runOps l).getItem key).1 = .ok x := by
  have hs : (d.getItem key).2.stored key = some x := by
    unfold FDict.getItem at h ⊢
    cases hs : d.stored key with
    | some o => simp only [hs] at h ⊢; simpa using h
    | none =>
      simp only [hs] at h ⊢
      cases hf : firstFac key d.facs with
      | error e => rw [hf] at h; simp at h
      | ok o => rw [hf] at h; simp [hst] at h ⊢; exact h
  rw [C41_stored_first _ key x (stored_run l _ key x hs hl)]

/-- identities in use are below `next` -/
def Fresh (d : FDict V O) : Prop := ∀ k x, d.stored k = some x → x.1 < d.next

/-- Objects with different keys are different, over all histories that start without entries: no object is shared between two names. -/
theorem C41_no_sharing (d : FDict V O) (h0 : ∀ k, d.stored k = none) (l : List (Op V O)) (k k' : Str) (x y : ℕ × O)
    (hx : (d.runOps l).stored k = some x) (hy : (d.runOps l).stored k' = some y) (hne : k ≠ k') : x.1 ≠ y.1 := by
  have inv : ∀ (l : List (Op V O)) (d : FDict V O), (Fresh d ∧ ∀ k k' x y, d.stored k = some x → d.stored k' = some y → k ≠ k' → x.1 ≠ y.1) →
      (Fresh (d.runOps l) ∧ ∀ k k' x y, (d.runOps l).stored k = some x → (d.runOps l).stored k' = some y → k ≠ k' → x.1 ≠ y.1) := by
    intro l
    induction l with
    | nil => intro d h; exact h
    | cons op l ih =>
      intro d hd
      simp only [FDict.runOps, List.foldl_cons]
      apply ih
      obtain ⟨hF, hI⟩ := hd
      have ins : ∀ (key : Str) (o : O), Fresh { d with stored := fun k => if k = key then some (d.next, o) else d.stored k, next := d.next + 1 } ∧
          ∀ k k' x y, (if k = key then some (d.next, o) else d.stored k) = some x → (if k' = key then some (d.next, o) else d.stored k') = some y →
            k ≠ k' → x.1 ≠ y.1 := by
        intro key o
        refine ⟨?_, ?_⟩
        · intro k x hx
          simp only at hx ⊢
          split at hx
          · simp at hx; subst hx; simp
          · have := hF k x hx; omega
        · intro k k' x y hx hy hkk
          split at hx <;> split at hy
          · rename_i e1 e2; exact absurd (e1.trans e2.symm) hkk
          · simp at hx; subst hx
            have := hF k' y hy
            simp only; omega
          · simp at hy; subst hy
            have := hF k x hx
            simp only; omega
          · exact hI k k' x y hx hy hkk
      cases op with
      | lookup key =>
        simp only [FDict.step, FDict.getItem]
        cases hs : d.stored key with
        | some o => exact ⟨hF, hI⟩
        | none =>
          simp only
          cases hf : firstFac key d.facs with
          | error e => exact ⟨hF, hI⟩
          | ok o =>
            by_cases hsc : d.storeCreated = true
            · simp only [hsc, if_true]
              exact ins key o
            · simp only [hsc]
              refine ⟨?_, hI⟩
              intro k x hx
              have := hF k x hx
              show x.1 < d.next + 1
              omega
      | assign key o => exact ins key o
      | addFac f => exact ⟨hF, hI⟩
  exact (inv l d ⟨fun k x hx => by rw [h0 k] at hx; simp at hx, fun k k' x y hx _ _ => by rw [h0 k] at hx; simp at hx⟩).2 k k' x y hx hy hne

lemma construct_ok_matches (f : Fac V O) (key : Str) (o : O) (h : f.construct key = .ok o) : f.matches key = true := by
  unfold Fac.construct Fac.pars at h
  unfold Fac.matches
  cases hm : matchName f.tmpl key with
  | none => rw [hm] at h; simp at h
  | some ws => rfl

/-- Whatever can be looked up is contained. -/
theorem C41_contains_of_lookup (d : FDict V O) (key : Str) (x : ℕ × O) (h : (d.getItem key).1 = .ok x) : d.contains key = true := by
  unfold FDict.contains
  cases hs : d.stored key with
  | some o => simp
  | none =>
    obtain ⟨i, f, hf, hc, _⟩ := (C41_first_factory d key hs x.2).1 ⟨x.1, h⟩
    simp only [Option.isSome_none, Bool.false_or, List.any_eq_true]
    exact ⟨f, List.mem_of_getElem? hf, construct_ok_matches f key _ hc⟩

/-- a dictionary with the factory `level<n>` of the model book -/
def levelDict : FDict KV Unit :=
  { stored := fun _ => none, next := 0, storeCreated := true,
    facs := [{ tmpl := ⟨["level".toList, []], ["n".toList]⟩, v2a := [], opts := [("n".toList, .func (fun s => (pyFloat s).map KV.num))], fixed := [],
               plain := KV.str, base := fun _ => .ok () }] }

/-- The converse does not hold: `key in d` only looks at the templates. -/
theorem C41_contains_not_lookup : levelDict.contains "levels".toList = true ∧ (levelDict.getItem "levels".toList).1 = .error .keyError := by
  refine ⟨by decide +kernel, ?_⟩
  rw [C41_lookup_error]
  refine ⟨rfl, Or.inl ⟨rfl, ?_⟩⟩
  intro g hg
  simp only [levelDict, List.mem_singleton] at hg
  subst hg
  rfl

/-- the lookup theorems are about this kind of dictionary: here a lookup that succeeds -/
example : ∃ x, (levelDict.getItem "level5".toList).1 = .ok x := ⟨(0, ()), rfl⟩

/-! ### Order of the factories -/

/-- same beginning and end of the template -/
def Similar (f g : Template) : Prop := f.prefix = g.prefix ∧ f.suffix = g.suffix

/-- Of two factories with similar templates the one with more variables comes first. -/
def MoreVarsFirst (ts : List Template) : Prop := ts.Pairwise (fun f g => Similar f g → g.vars.length ≤ f.vars.length)

lemma insIndex_le (f : Template) (ts : List Template) : insIndex f ts ≤ ts.length := by
  induction ts with
  | nil => simp [insIndex]
  | cons g gs ih => simp only [insIndex]; split <;> simp <;> omega

lemma insIndex_before (f : Template) (ts : List Template) : ∀ g ∈ ts.take (insIndex f ts), Similar g f → f.vars.length ≤ g.vars.length := by
  induction ts with
  | nil => simp
  | cons g gs ih =>
    simp only [insIndex]
    split
    · simp
    · rename_i hc
      intro x hx hs
      rw [List.take_succ_cons] at hx
      rcases List.mem_cons.1 hx with rfl | hx
      · by_contra hlt
        exact hc ⟨hs.1, hs.2, by omega⟩
      · exact ih x hx hs

lemma insIndex_after (f : Template) (ts : List Template) (hM : MoreVarsFirst ts) :
    ∀ g ∈ ts.drop (insIndex f ts), Similar f g → g.vars.length ≤ f.vars.length := by
  induction ts with
  | nil => simp
  | cons g gs ih =>
    have hM' := List.pairwise_cons.1 hM
    simp only [insIndex]
    split
    · rename_i hc
      intro x hx hs
      rw [List.drop_zero] at hx
      rcases List.mem_cons.1 hx with rfl | hx
      · omega
      · have := hM'.1 x hx ⟨hc.1.trans hs.1, hc.2.1.trans hs.2⟩
        omega
    · intro x hx hs
      rw [List.drop_succ_cons] at hx
      exact ih hM'.2 x hx hs

/-- `add_factory` keeps this order, for all sequences of additions; so a name is never given to a factory with fewer variables before all similar ones with
more variables have refused it. -/
theorem C41_more_variables_first (d : FDict V O) (hd : d.facs = []) (l : List (Op V O)) : MoreVarsFirst ((d.runOps l).facs.map (·.tmpl)) := by
  have step : ∀ (d : FDict V O) (op : Op V O), MoreVarsFirst (d.facs.map (·.tmpl)) → MoreVarsFirst ((d.step op).facs.map (·.tmpl)) := by
    intro d op h
    cases op with
    | lookup k =>
      have : (d.getItem k).2.facs = d.facs := by
        unfold FDict.getItem
        cases d.stored k with
        | some o => rfl
        | none =>
          simp only
          cases firstFac k d.facs with
          | error e => rfl
          | ok o => by_cases hsc : d.storeCreated = true <;> simp [hsc]
      simp only [FDict.step]
      rw [this]; exact h
    | assign k o => exact h
    | addFac f =>
      simp only [FDict.step, FDict.addFactory, List.map_append, List.map_cons, List.map_take, List.map_drop]
      have ha := insIndex_after f.tmpl _ h
      have hb := insIndex_before f.tmpl (d.facs.map (·.tmpl))
      have hsplit : MoreVarsFirst ((d.facs.map (·.tmpl)).take (insIndex f.tmpl (d.facs.map (·.tmpl))) ++ (d.facs.map (·.tmpl)).drop (insIndex f.tmpl (d.facs.map (·.tmpl)))) := by
        rw [List.take_append_drop]; exact h
      obtain ⟨p1, p2, p3⟩ := List.pairwise_append.1 hsplit
      refine List.pairwise_append.2 ⟨p1, List.pairwise_cons.2 ⟨ha, p2⟩, ?_⟩
      intro x hx y hy hs
      rcases List.mem_cons.1 hy with rfl | hy
      · exact hb x hx hs
      · exact p3 x hx y hy hs
  have run : ∀ (l : List (Op V O)) (d : FDict V O), MoreVarsFirst (d.facs.map (·.tmpl)) → MoreVarsFirst ((d.runOps l).facs.map (·.tmpl)) := by
    intro l
    induction l with
    | nil => intro d h; exact h
    | cons op l ih => intro d h; exact ih _ (step d op h)
  exact run l d (by rw [hd]; exact List.Pairwise.nil)

/-- no factory is lost or altered by adding one -/
theorem C41_add_factory_perm (d : FDict V O) (f : Fac V O) : ((d.addFactory f).facs).Perm (f :: d.facs) := by
  simp only [FDict.addFactory]
  have := List.perm_middle (a := f) (l₁ := d.facs.take (insIndex f.tmpl (d.facs.map (·.tmpl)))) (l₂ := d.facs.drop (insIndex f.tmpl (d.facs.map (·.tmpl))))
  rwa [List.take_append_drop] at this

/-! ### Values -/

lemma isDigit_ne_dot (s : Str) (h : s.all Char.isDigit = true) : '.' ∉ s := by
  intro hm
  have := List.all_eq_true.1 h '.' hm
  exact absurd this (by decide)

lemma pyFloat_frac (s : Str) (h : s.all Char.isDigit = true) : pyFloat ('0' :: '.' :: s) = .ok ((digitsVal s : ℚ) / 10 ^ s.length) := by
  have e : pySplit '.' ('0' :: '.' :: s) = [['0'], s] := by
    have := pySplit_append '.' ['0'] s (by decide)
    rw [pySplit_nomem _ _ (isDigit_ne_dot s h)] at this
    simpa using this
  have d0 : digitsVal ['0'] = 0 := by decide
  have hd : ∀ x ∈ s, x.isDigit = true := List.all_eq_true.1 h
  have h0 : ('0' : Char).isDigit = true := by decide
  simp [pyFloat, e, d0, h0]
  exact hd

lemma pyFloat_nat (s : Str) (hne : s ≠ []) (h : s.all Char.isDigit = true) : pyFloat s = .ok (digitsVal s : ℚ) := by
  have e : pySplit '.' s = [s] := pySplit_nomem _ _ (isDigit_ne_dot s h)
  have hd : ∀ x ∈ s, x.isDigit = true := List.all_eq_true.1 h
  simp [pyFloat, e, hne]
  exact hd

lemma digitsVal_repr (n : ℕ) : digitsVal (Nat.repr n).toList = n := by
  rw [Nat.toList_repr]
  exact Nat.ofDigitChars_toDigits (by norm_num) (by norm_num)

lemma isDigit_repr (n : ℕ) : (Nat.repr n).toList.all Char.isDigit = true := by
  rw [Nat.toList_repr, List.all_eq_true]
  intro c hc
  exact Nat.isDigit_of_mem_toDigits (by norm_num) (by norm_num) hc

lemma digitsVal_zeros (m : ℕ) (s : Str) : digitsVal (List.replicate m '0' ++ s) = digitsVal s := by
  induction m with
  | zero => rfl
  | succ m ih =>
    rw [List.replicate_succ, List.cons_append]
    unfold digitsVal at ih ⊢
    rw [List.foldl_cons]
    have : 10 * 0 + digitVal '0' = 0 := by decide
    rw [this]; exact ih

/-- The value of `0` followed by digits has these digits behind the decimal point: `004` is 0.04. -/
theorem C41_k_value_fraction (m n : ℕ) :
    kval ('0' :: (List.replicate m '0' ++ (Nat.repr n).toList)) = .ok ((n : ℚ) / 10 ^ (m + (Nat.repr n).length)) := by
  have h : (List.replicate m '0' ++ (Nat.repr n).toList).all Char.isDigit = true := by
    rw [List.all_append, isDigit_repr, Bool.and_true, List.all_eq_true]
    intro c hc
    rw [List.eq_of_mem_replicate hc]; decide
  simp only [kval, if_true]
  rw [pyFloat_frac _ h, digitsVal_zeros, digitsVal_repr, List.length_append, List.length_replicate, String.length_toList]

/-- A value that does not start with `0` is an ordinary number: `2` is 2. -/
theorem C41_k_value_integer (n : ℕ) (hn : 0 < n) : kval (Nat.repr n).toList = .ok (n : ℚ) := by
  have hne : (Nat.repr n).toList ≠ [] := by
    intro e
    have := digitsVal_repr n
    rw [e] at this
    have : (0 : ℕ) = n := this
    omega
  have hh : (Nat.repr n).toList.head? ≠ some '0' := by
    intro he
    cases hl : (Nat.repr n).toList with
    | nil => exact hne hl
    | cons c s =>
      rw [hl] at he
      simp at he
      subst he
      have h1 : (Nat.repr n).toList = Nat.toDigits 10 n := Nat.toList_repr
      have h2 := digitsVal_repr n
      -- the first digit of a positive number is not zero
      have h3 : digitsVal s = n := by
        rw [hl] at h2
        have := digitsVal_zeros 1 s
        simpa using this.symm.trans h2
      have hlen : (Nat.toDigits 10 n).length ≤ s.length := by
        by_contra hlt
        have hs : digitsVal s < 10 ^ s.length := by
          have hd : s.all Char.isDigit = true := by
            have := isDigit_repr n
            rw [hl, List.all_cons] at this
            exact (Bool.and_eq_true _ _ ▸ this).2
          clear h3 hl h1 h2 hlt
          induction s using List.reverseRecOn with
          | nil => simp [digitsVal]
          | append_singleton s c ih =>
            rw [List.all_append, Bool.and_eq_true] at hd
            have hs := ih hd.1
            have hc : digitVal c ≤ 9 := by
              have : c.isDigit = true := by simpa using hd.2
              simp [Char.isDigit] at this
              have h9 : c.toNat ≤ 57 := this.2
              simp only [digitVal]
              have : '0'.toNat = 48 := rfl
              omega
            unfold digitsVal at hs ⊢
            rw [List.foldl_append]
            simp only [List.foldl_cons, List.foldl_nil, List.length_append, List.length_singleton, pow_succ]
            omega
        rw [h3] at hs
        have := (Nat.length_toDigits_le_iff (b := 10) (n := n) (k := s.length) (by norm_num) (by
          by_contra h0
          have : s.length = 0 := by omega
          rw [this] at hs
          omega)).2 hs
        omega
      rw [← h1, hl] at hlen
      simp at hlen
  cases hl : (Nat.repr n).toList with
  | nil => exact absurd hl hne
  | cons c s =>
    rw [hl] at hh
    have hc : c ≠ '0' := by simpa using hh
    have hv := pyFloat_nat (c :: s) (by simp) (by rw [← hl]; exact isDigit_repr n)
    simp only [kval, if_neg hc]
    rw [hv, ← hl, digitsVal_repr]

/-- A value below one therefore has to be written without the decimal point; with it, it is refused with a ValueError, and an empty value ends
with an IndexError, which a dictionary lookup does not catch. -/
theorem C41_k_value_refused : kval "0.04".toList = .error .valueError ∧ kval [] = .error .indexError ∧ kval "1.5".toList = .ok (3 / 2) := by
  refine ⟨by decide +kernel, rfl, by decide +kernel⟩

/-- Time steps and lengths: seconds are converted to minutes, metres to kilometres. -/
theorem C41_units (n : ℕ) :
    todt ((Nat.repr n).toList ++ ['s']) = .ok ((n : ℚ) / 60) ∧ todt ((Nat.repr n).toList ++ "min".toList) = .ok (n : ℚ) ∧
    tokm ((Nat.repr n).toList ++ ['m']) = .ok ((n : ℚ) / 1000) ∧ tokm ((Nat.repr n).toList ++ "km".toList) = .ok (n : ℚ) := by
  have hne : (Nat.repr n).toList ≠ [] := by
    intro e
    have h1 : (Nat.repr n).toList = Nat.toDigits 10 n := Nat.toList_repr
    rw [h1] at e
    exact Nat.toDigits_ne_nil e
  have hv := pyFloat_nat _ hne (isDigit_repr n)
  rw [digitsVal_repr] at hv
  have hnk : ¬ ("km".toList).isSuffixOf ((Nat.repr n).toList ++ ['m']) = true := by
    intro h
    rw [List.isSuffixOf_iff_suffix] at h
    have e : "km".toList = ['k'] ++ ['m'] := by decide
    rw [e, List.suffix_append_inj_of_length_eq (by simp)] at h
    obtain ⟨⟨a, ha⟩, _⟩ := h
    have hm : 'k' ∈ (Nat.repr n).toList := by rw [← ha]; simp
    have := List.all_eq_true.1 (isDigit_repr n) 'k' hm
    exact absurd this (by decide)
  refine ⟨?_, ?_, ?_, ?_⟩
  · simp [todt, hv, -Nat.toList_repr]
  · have e : (Nat.repr n).toList ++ "min".toList = (Nat.repr n).toList ++ "mi".toList ++ ['n'] := by simp
    have hl : ((Nat.repr n).toList ++ "min".toList).getLast? = some 'n' := by rw [e]; simp
    have hs : ("min".toList).isSuffixOf ((Nat.repr n).toList ++ "min".toList) = true := by
      rw [List.isSuffixOf_iff_suffix]; exact List.suffix_append _ _
    have hn : ('n' : Char) ≠ 's' := by decide
    unfold todt
    rw [hl]
    simp only [if_neg hn, hs, if_true]
    have hlen : ((Nat.repr n).toList ++ "min".toList).length - 3 = (Nat.repr n).toList.length := by
      rw [List.length_append]
      have : ("min".toList).length = 3 := by decide
      omega
    rw [hlen, List.take_left, hv]
  · unfold tokm
    rw [if_neg hnk]
    simp [hv, -Nat.toList_repr]
  · have hs : ("km".toList).isSuffixOf ((Nat.repr n).toList ++ "km".toList) = true := by
      rw [List.isSuffixOf_iff_suffix]; exact List.suffix_append _ _
    unfold tokm
    rw [if_pos hs]
    have hlen : ((Nat.repr n).toList ++ "km".toList).length - 2 = (Nat.repr n).toList.length := by
      rw [List.length_append]
      have : ("km".toList).length = 2 := by decide
      omega
    rw [hlen, List.take_left, hv]

end Foxes.Props.Factory
