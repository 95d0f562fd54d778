import Verif.Props.Factory
import Mathlib.Tactic.FinCases
/-
C41: the families of names with wake growth parameters, `Model_<superposition>_[wake_k]` and `frame_[wake_k]`.
-/
namespace Foxes.Props.FactoryK
open Foxes.Factory Foxes.Props.Factory

/-! ### Which strings are values -/

/-- digits and decimal points -/
def NumChars (s : Str) : Prop := ∀ c ∈ s, c.isDigit = true ∨ c = '.'

lemma pyFloat_ok_chars (s : Str) (v : ℚ) (h : pyFloat s = .ok v) : NumChars s ∧ s ≠ [] := by
  unfold pyFloat at h
  split at h
  · rename_i a ha
    split at h
    · rename_i hc
      rcases pySplit_cases '.' s with ⟨_, h'⟩ | ⟨b, r, _, rfl, h'⟩
      · rw [h'] at ha; simp at ha; subst ha
        exact ⟨fun c hm => Or.inl (List.all_eq_true.1 hc.2 c hm), hc.1⟩
      · rw [h'] at ha
        simp at ha
        exact absurd ha.2 (pySplit_ne_nil _ _)
    · simp at h
  · rename_i a b hab
    split at h
    · rename_i hc
      obtain ⟨rfl, _, _⟩ := pySplit_pair _ _ _ _ hab
      refine ⟨?_, by simp⟩
      intro c hm
      simp only [List.mem_append, List.mem_cons] at hm
      rcases hm with hm | rfl | hm
      · exact Or.inl (List.all_eq_true.1 hc.2.1 c hm)
      · exact Or.inr rfl
      · exact Or.inl (List.all_eq_true.1 hc.2.2 c hm)
    · simp at h
  · simp at h

lemma kval_ok_chars (s : Str) (v : ℚ) (h : kval s = .ok v) : NumChars s ∧ s ≠ [] := by
  cases s with
  | nil => simp [kval] at h
  | cons c s =>
    simp only [kval] at h
    split at h
    · rename_i hc; subst hc
      obtain ⟨h1, _⟩ := pyFloat_ok_chars _ _ h
      refine ⟨?_, by simp⟩
      intro d hd
      rcases List.mem_cons.1 hd with rfl | hd
      · exact Or.inl (by decide)
      · exact h1 d (by simp [hd])
    · exact pyFloat_ok_chars _ _ h

lemma numChars_us (s : Str) (h : NumChars s) : '_' ∉ s := by
  intro hm
  rcases h '_' hm with h | h <;> exact absurd h (by decide)

lemma numChars_head (s : Str) (h : NumChars s) : s.head? ≠ some 'a' := by
  intro he
  cases s with
  | nil => simp at he
  | cons c s =>
    simp at he; subst he
    rcases h 'a' (by simp) with h | h <;> exact absurd h (by decide)

/-! ### Separators -/

/-- `_` followed by a word -/
lemma infix_us (q u r : Str) (hq : '_' ∉ q) (hr : '_' ∉ r) : ('_' :: q) <:+: (u ++ '_' :: r) ↔ ('_' :: q) <:+: u ∨ q <+: r := by
  constructor
  · rintro ⟨a, b, h⟩
    rw [List.append_assoc] at h
    rcases List.append_eq_append_iff.1 h with ⟨c, rfl, hc⟩ | ⟨c, rfl, hc⟩
    · -- a is a beginning of u
      cases c with
      | nil =>
        simp at hc
        exact Or.inr ⟨b, hc⟩
      | cons d c =>
        simp only [List.cons_append, List.cons.injEq] at hc
        obtain ⟨rfl, hc⟩ := hc
        rcases List.append_eq_append_iff.1 hc with ⟨e, rfl, he⟩ | ⟨e, rfl, he⟩
        · left
          exact ⟨a, e, by simp⟩
        · cases e with
          | nil =>
            left
            exact ⟨a, [], by simp⟩
          | cons x e =>
            simp only [List.cons_append, List.cons.injEq] at he
            exact absurd (by simp [← he.1] : '_' ∈ c ++ x :: e) hq
    · -- u is a beginning of a
      cases c with
      | nil =>
        simp at hc
        exact Or.inr ⟨b, hc.symm⟩
      | cons d c =>
        simp only [List.cons_append, List.cons.injEq] at hc
        exact absurd (by rw [hc.2]; simp : '_' ∈ r) hr
  · rintro (⟨a, b, rfl⟩ | ⟨b, rfl⟩)
    · exact ⟨a, b ++ '_' :: r, by simp⟩
    · exact ⟨u, b, by simp⟩

lemma not_infix_of_nomem (q u : Str) (hu : '_' ∉ u) : ¬ ('_' :: q) <:+: u := by
  rintro ⟨a, b, rfl⟩
  exact hu (by simp)

lemma matchGo_none (p s : Str) (ps : List Str) (hp : p ≠ []) (h : ¬ p <:+: s) : matchGo (p :: ps) s = none := by
  have : find p s = none := by
    rw [find_none p hp]
    rintro i ⟨a, b, rfl, _⟩
    exact h ⟨a, b, rfl⟩
  simp [matchGo, hp, this]

lemma matchGo_some (w p r : Str) (ps : List Str) (hp : p ≠ []) (h : EndsAt w p) :
    matchGo (p :: ps) (w ++ p ++ r) = (matchGo ps r).map (w :: ·) := by
  have hf := find_append w p r hp h
  have hd : (w ++ p ++ r).drop (w.length + p.length) = r := by
    have : w.length + p.length = (w ++ p).length := by simp
    rw [this, List.drop_left]
  have ht : (w ++ p ++ r).take w.length = w := by rw [List.append_assoc, List.take_left]
  simp only [matchGo, if_neg hp, hf, hd, ht]

lemma matchGo_last (s : Str) : matchGo [[]] s = some [s] := by simp [matchGo]

lemma matchName_prefix (p r : Str) (ps vs : List Str) (hp : p ≠ []) : matchName ⟨p :: ps, vs⟩ (p ++ r) = matchGo ps r := by
  have hf : find p (p ++ r) = some 0 := by
    rw [find_some p hp]
    exact ⟨⟨[], r, by simp, rfl⟩, by simp⟩
  simp only [matchName, if_neg hp, hf, List.drop_left]

lemma matchName_no_prefix (p s : Str) (ps vs : List Str) (hp : p ≠ []) (h : ¬ p <+: s) : matchName ⟨p :: ps, vs⟩ s = none := by
  simp only [matchName, if_neg hp]
  cases hf : find p s with
  | none => rfl
  | some i =>
    cases i with
    | succ i => rfl
    | zero => exact absurd ((occursAt_zero p s).1 ((find_some p hp s 0).1 hf).1) h

/-! ### The family with a superposition, e.g. `Jensen_<superposition>_[wake_k]` -/

/-- the parameters that the constructor of the model gets -/
structure Args where
  superposition : Option KV
  k : Option KV
  ka : Option KV
  kb : Option KV
  ti_var : Option KV
deriving DecidableEq

/-- a constructor that reports its parameters -/
def report (k : Kwargs KV) : Except Err Args :=
  .ok ⟨k "superposition".toList, k "k".toList, k "ka".toList, k "kb".toList, k "ti_var".toList⟩

/-- an empty dictionary -/
def emptyDict : FDict KV Args := { stored := fun _ => none, next := 0, storeCreated := true, facs := [] }

/-- `wake_models.add_k_factory(cls, "<P><superposition>_[wake_k]", superposition=lambda s: f"<pre>{s}")` -/
def modelDict (P pre : Str) : Except Err (FDict KV Args) :=
  addKFactory emptyDict (P ++ "<superposition>".toList) [] [("superposition".toList, .func (fun s => .ok (KV.str (pre ++ s))))] [] report

/-- the factory of a case, for a parsed template -/
def kFac (t : Template) (opts : List (Str × Opt KV)) (c : String × List (String × String) × List String × String) : Fac KV Args :=
  { tmpl := t
    v2a := c.2.1.map (fun p => (p.1.toList, p.2.toList))
    opts := opts ++ c.2.2.1.map (fun v => (v.toList, Opt.func (fun s => (kval s).map KV.num)))
    fixed := [] ++ [("ti_var".toList, KV.str c.2.2.2.toList)]
    plain := KV.str
    base := report }

/-- the templates of the family -/
def mT (P : Str) : Fin 6 → Template
  | 0 => ⟨[P, "_ka".toList, "_kb".toList, []], ["superposition".toList, "ka".toList, "kb".toList]⟩
  | 1 => ⟨[P, "_ambka".toList, "_kb".toList, []], ["superposition".toList, "ambka".toList, "kb".toList]⟩
  | 2 => ⟨[P, "_ka".toList, []], ["superposition".toList, "ka".toList]⟩
  | 3 => ⟨[P, "_ambka".toList, []], ["superposition".toList, "ambka".toList]⟩
  | 4 => ⟨[P, "_k".toList, []], ["superposition".toList, "k".toList]⟩
  | 5 => ⟨[P, []], ["superposition".toList]⟩

lemma mT_parse (P : Str) (hP : NoBracket P) (hne : P ≠ []) (i : Fin 6) :
    parseTemplate (P ++ "<superposition>".toList ++ (wakeKCases[i]'(by simp [wakeKCases])).1.toList ++ []) = .ok (mT P i) := by
  rw [C41_template]
  fin_cases i <;>
  · refine ⟨by simp [templateText, mT, wakeKCases], ⟨rfl, ?_, ?_, ?_, ?_, ?_⟩⟩
    · simp [mT, NoBracket]
    · simp only [mT, List.dropLast, List.forall_mem_cons]
      refine ⟨hP, ?_⟩
      simp [NoBracket]
    · intro p hp; simp [mT] at hp; subst hp; simp
    · intro p hp
      simp only [mT, List.dropLast, List.drop] at hp
      revert p; decide
    · intro _; simpa [mT] using hne

/-- the options of the family -/
abbrev supOpts (pre : Str) : List (Str × Opt KV) := [("superposition".toList, .func (fun s => .ok (KV.str (pre ++ s))))]

/-- the factories of the family, in the order in which they are tried -/
lemma modelDict_facs (P pre : Str) (hP : NoBracket P) (hne : P ≠ []) :
    modelDict P pre = .ok { emptyDict with facs := [
      kFac (mT P 0) (supOpts pre) ("_ka<ka>_kb<kb>", [], ["ka", "kb"], "TI"),
      kFac (mT P 1) (supOpts pre) ("_ambka<ambka>_kb<kb>", [("ambka", "ka")], ["ambka", "kb"], "AMB_TI"),
      kFac (mT P 2) (supOpts pre) ("_ka<ka>", [], ["ka"], "TI"),
      kFac (mT P 3) (supOpts pre) ("_ambka<ambka>", [("ambka", "ka")], ["ambka"], "AMB_TI"),
      kFac (mT P 4) (supOpts pre) ("_k<k>", [], ["k"], "TI"),
      kFac (mT P 5) (supOpts pre) ("", [], [], "TI")] } := by
  have h := fun i => mT_parse P hP hne i
  have h0 := h 0; have h1 := h 1; have h2 := h 2; have h3 := h 3; have h4 := h 4; have h5 := h 5
  simp only [wakeKCases, Fin.getElem_fin] at h0 h1 h2 h3 h4 h5
  unfold modelDict addKFactory wakeKCases
  simp only [List.foldl_cons, List.foldl_nil, wakeKFac]
  rw [show parseTemplate (P ++ "<superposition>".toList ++ "_ka<ka>_kb<kb>".toList ++ []) = .ok (mT P 0) from h0]
  rw [show parseTemplate (P ++ "<superposition>".toList ++ "_ambka<ambka>_kb<kb>".toList ++ []) = .ok (mT P 1) from h1]
  rw [show parseTemplate (P ++ "<superposition>".toList ++ "_ka<ka>".toList ++ []) = .ok (mT P 2) from h2]
  rw [show parseTemplate (P ++ "<superposition>".toList ++ "_ambka<ambka>".toList ++ []) = .ok (mT P 3) from h3]
  rw [show parseTemplate (P ++ "<superposition>".toList ++ "_k<k>".toList ++ []) = .ok (mT P 4) from h4]
  rw [show parseTemplate (P ++ "<superposition>".toList ++ "".toList ++ []) = .ok (mT P 5) from h5]
  simp [FDict.addFactory, emptyDict, insIndex, kFac, mT]

/-- looking up with a given list of factories: the first ones do not match, the next one constructs -/
lemma firstFac_skip (key : Str) (f : Fac KV Args) (fs : List (Fac KV Args)) (h : matchName f.tmpl key = none) : firstFac key (f :: fs) = firstFac key fs := by
  have : f.construct key = .error .valueError := by simp [Fac.construct, Fac.pars, h]
  simp [firstFac, this]

lemma firstFac_hit (key : Str) (f : Fac KV Args) (fs : List (Fac KV Args)) (o : Args) (h : f.construct key = .ok o) : firstFac key (f :: fs) = .ok o := by
  simp [firstFac, h]

lemma getItem_of_firstFac (d : FDict KV Args) (key : Str) (o : Args) (hs : d.stored key = none) (h : firstFac key d.facs = .ok o) :
    ∃ n, (d.getItem key).1 = .ok (n, o) := by
  unfold FDict.getItem
  rw [hs, h]
  by_cases hc : d.storeCreated = true <;> simp [hc]

/-- The superposition names that keep the family unambiguous: those that contain neither `_k` nor `_ambka`. -/
def PlainSuperposition (sp : Str) : Prop := ¬ "_k".toList <:+: sp ∧ ¬ "_ambka".toList <:+: sp

lemma us_ka : "_ka".toList = '_' :: "ka".toList := by decide
lemma us_kb : "_kb".toList = '_' :: "kb".toList := by decide
lemma us_k : "_k".toList = '_' :: "k".toList := by decide
lemma us_amb : "_ambka".toList = '_' :: "ambka".toList := by decide

lemma plain_ka (sp : Str) (h : PlainSuperposition sp) : ¬ "_ka".toList <:+: sp := by
  intro hi
  apply h.1
  exact List.IsInfix.trans ⟨[], ['a'], by decide⟩ hi

lemma ends_ka (sp : Str) (h : PlainSuperposition sp) : EndsAt sp "_ka".toList := by
  rw [us_ka]; exact endsAt_of_not_infix _ _ _ (by decide) (us_ka ▸ plain_ka sp h)

lemma ends_k (sp : Str) (h : PlainSuperposition sp) : EndsAt sp "_k".toList := by
  rw [us_k]; exact endsAt_of_not_infix _ _ _ (by decide) (us_k ▸ h.1)

lemma ends_amb (sp : Str) (h : PlainSuperposition sp) : EndsAt sp "_ambka".toList := by
  rw [us_amb]; exact endsAt_of_not_infix _ _ _ (by decide) (us_amb ▸ h.2)

lemma ends_num (a : Str) (h : NumChars a) : EndsAt a "_kb".toList := by
  rw [us_kb]; exact endsAt_of_not_infix _ _ _ (by decide) (not_infix_of_nomem _ _ (numChars_us a h))

lemma us_app (x a : Str) (ha : NumChars a) (hx : '_' ∉ x) : '_' ∉ x ++ a := by
  simp only [List.mem_append, not_or]
  exact ⟨hx, numChars_us a ha⟩

/-- `_ka` does not occur in these names -/
lemma no_ka_amb (sp a : Str) (h : PlainSuperposition sp) (ha : NumChars a) : ¬ "_ka".toList <:+: sp ++ "_ambka".toList ++ a := by
  rw [us_ka, us_amb, List.append_assoc, List.cons_append, infix_us _ _ _ (by decide) (us_app _ _ ha (by decide))]
  rintro (h' | h')
  · exact plain_ka sp h (us_ka ▸ h')
  · obtain ⟨r, hr⟩ := h'; simp at hr

lemma no_ka_amb_kb (sp a b : Str) (h : PlainSuperposition sp) (ha : NumChars a) (hb : NumChars b) :
    ¬ "_ka".toList <:+: sp ++ "_ambka".toList ++ a ++ "_kb".toList ++ b := by
  have h1 := no_ka_amb sp a h ha
  rw [us_kb, List.append_assoc, List.cons_append]
  rw [us_ka] at h1 ⊢
  rw [infix_us _ _ _ (by decide) (us_app _ _ hb (by decide))]
  rintro (h' | h')
  · exact h1 h'
  · obtain ⟨r, hr⟩ := h'; simp at hr

lemma no_amb_ka (sp a : Str) (h : PlainSuperposition sp) (ha : NumChars a) : ¬ "_ambka".toList <:+: sp ++ "_ka".toList ++ a := by
  rw [us_amb, us_ka, List.append_assoc, List.cons_append, infix_us _ _ _ (by decide) (us_app _ _ ha (by decide))]
  rintro (h' | h')
  · exact h.2 (us_amb ▸ h')
  · obtain ⟨r, hr⟩ := h'; simp at hr

lemma no_amb_k (sp a : Str) (h : PlainSuperposition sp) (ha : NumChars a) : ¬ "_ambka".toList <:+: sp ++ "_k".toList ++ a := by
  rw [us_amb, us_k, List.append_assoc, List.cons_append, infix_us _ _ _ (by decide) (us_app _ _ ha (by decide))]
  rintro (h' | h')
  · exact h.2 (us_amb ▸ h')
  · obtain ⟨r, hr⟩ := h'; simp at hr

lemma no_ka_k (sp a : Str) (h : PlainSuperposition sp) (ha : NumChars a) : ¬ "_ka".toList <:+: sp ++ "_k".toList ++ a := by
  rw [us_ka, us_k, List.append_assoc, List.cons_append, infix_us _ _ _ (by decide) (us_app _ _ ha (by decide))]
  rintro (h' | h')
  · exact plain_ka sp h (us_ka ▸ h')
  · obtain ⟨r, hr⟩ := h'
    have : a = 'a' :: r := by simpa using hr.symm
    exact numChars_head a ha (by rw [this]; rfl)

lemma no_k_amb (a : Str) (ha : NumChars a) : ¬ "_kb".toList <:+: a :=
  us_kb ▸ not_infix_of_nomem _ _ (numChars_us a ha)

/-- what is constructed when the values are known -/
lemma construct_of_match (f : Fac KV Args) (key : Str) (ws : List Str) (k : Kwargs KV) (hm : matchName f.tmpl key = some ws)
    (hl : f.loop (f.tmpl.vars.zip ws) (fun _ => none) = .ok k) (hb : f.base = report) : f.construct key = report (updFixed f.fixed k) := by
  simp [Fac.construct, Fac.pars, hm, hl, hb]

variable (P pre sp : Str)

/-- Model names with `ka` and `kb`: both reach the model, k does not, and the turbulence intensity is the one in the wake. -/
theorem C41_name_ka_kb (d : FDict KV Args) (hd : modelDict P pre = .ok d) (hP : NoBracket P) (hne : P ≠ []) (hsp : PlainSuperposition sp)
    (a b : Str) (va vb : ℚ) (ha : kval a = .ok va) (hb : kval b = .ok vb) :
    ∃ n, (d.getItem (P ++ (sp ++ "_ka".toList ++ a ++ "_kb".toList ++ b))).1 =
      .ok (n, ⟨some (.str (pre ++ sp)), none, some (.num va), some (.num vb), some (.str "TI".toList)⟩) := by
  rw [modelDict_facs P pre hP hne] at hd
  simp only [Except.ok.injEq] at hd
  subst hd
  apply getItem_of_firstFac _ _ _ rfl
  apply firstFac_hit
  have hm : matchName (mT P 0) (P ++ (sp ++ "_ka".toList ++ a ++ "_kb".toList ++ b)) = some [sp, a, b] := by
    simp only [mT]
    rw [matchName_prefix _ _ _ _ hne]
    have e : sp ++ "_ka".toList ++ a ++ "_kb".toList ++ b = sp ++ "_ka".toList ++ (a ++ "_kb".toList ++ b) := by simp
    rw [e, matchGo_some _ _ _ _ (by decide) (ends_ka sp hsp), matchGo_some _ _ _ _ (by decide) (ends_num a (kval_ok_chars a va ha).1), matchGo_last]
    rfl
  rw [construct_of_match (kFac (mT P 0) (supOpts pre) ("_ka<ka>_kb<kb>", [], ["ka", "kb"], "TI")) _ [sp, a, b] _ hm (by
    simp [Fac.loop, kFac, mT, Fac.valOf, Fac.argOf, List.lookup, Opt.eval, ha, hb]
    rfl) rfl]
  simp [report, kFac, updFixed, setKw]

/-- Names with ambient `ka` and `kb`. -/
theorem C41_name_ambka_kb (d : FDict KV Args) (hd : modelDict P pre = .ok d) (hP : NoBracket P) (hne : P ≠ []) (hsp : PlainSuperposition sp)
    (a b : Str) (va vb : ℚ) (ha : kval a = .ok va) (hb : kval b = .ok vb) :
    ∃ n, (d.getItem (P ++ (sp ++ "_ambka".toList ++ a ++ "_kb".toList ++ b))).1 =
      .ok (n, ⟨some (.str (pre ++ sp)), none, some (.num va), some (.num vb), some (.str "AMB_TI".toList)⟩) := by
  rw [modelDict_facs P pre hP hne] at hd
  simp only [Except.ok.injEq] at hd
  subst hd
  have ca := (kval_ok_chars a va ha).1
  have cb := (kval_ok_chars b vb hb).1
  apply getItem_of_firstFac _ _ _ rfl
  rw [firstFac_skip _ _ _ (by
    simp only [kFac, mT]
    rw [matchName_prefix _ _ _ _ hne]
    exact matchGo_none _ _ _ (by decide) (no_ka_amb_kb sp a b hsp ca cb))]
  apply firstFac_hit
  have hm : matchName (mT P 1) (P ++ (sp ++ "_ambka".toList ++ a ++ "_kb".toList ++ b)) = some [sp, a, b] := by
    simp only [mT]
    rw [matchName_prefix _ _ _ _ hne]
    have e : sp ++ "_ambka".toList ++ a ++ "_kb".toList ++ b = sp ++ "_ambka".toList ++ (a ++ "_kb".toList ++ b) := by simp
    rw [e, matchGo_some _ _ _ _ (by decide) (ends_amb sp hsp), matchGo_some _ _ _ _ (by decide) (ends_num a ca), matchGo_last]
    rfl
  rw [construct_of_match (kFac (mT P 1) (supOpts pre) ("_ambka<ambka>_kb<kb>", [("ambka", "ka")], ["ambka", "kb"], "AMB_TI")) _ [sp, a, b] _ hm (by
    simp [Fac.loop, kFac, mT, Fac.valOf, Fac.argOf, List.lookup, Opt.eval, ha, hb]
    rfl) rfl]
  simp [report, kFac, updFixed, setKw]

/-- Names with `ka` only. -/
theorem C41_name_ka (d : FDict KV Args) (hd : modelDict P pre = .ok d) (hP : NoBracket P) (hne : P ≠ []) (hsp : PlainSuperposition sp)
    (a : Str) (va : ℚ) (ha : kval a = .ok va) :
    ∃ n, (d.getItem (P ++ (sp ++ "_ka".toList ++ a))).1 =
      .ok (n, ⟨some (.str (pre ++ sp)), none, some (.num va), none, some (.str "TI".toList)⟩) := by
  rw [modelDict_facs P pre hP hne] at hd
  simp only [Except.ok.injEq] at hd
  subst hd
  have ca := (kval_ok_chars a va ha).1
  apply getItem_of_firstFac _ _ _ rfl
  rw [firstFac_skip _ _ _ (by
    simp only [kFac, mT]
    rw [matchName_prefix _ _ _ _ hne, matchGo_some _ _ _ _ (by decide) (ends_ka sp hsp), matchGo_none _ _ _ (by decide) (no_k_amb a ca)]
    rfl)]
  rw [firstFac_skip _ _ _ (by
    simp only [kFac, mT]
    rw [matchName_prefix _ _ _ _ hne]
    exact matchGo_none _ _ _ (by decide) (no_amb_ka sp a hsp ca))]
  apply firstFac_hit
  have hm : matchName (mT P 2) (P ++ (sp ++ "_ka".toList ++ a)) = some [sp, a] := by
    simp only [mT]
    rw [matchName_prefix _ _ _ _ hne, matchGo_some _ _ _ _ (by decide) (ends_ka sp hsp), matchGo_last]
    rfl
  rw [construct_of_match (kFac (mT P 2) (supOpts pre) ("_ka<ka>", [], ["ka"], "TI")) _ [sp, a] _ hm (by
    simp [Fac.loop, kFac, mT, Fac.valOf, Fac.argOf, List.lookup, Opt.eval, ha]
    rfl) rfl]
  simp [report, kFac, updFixed, setKw]

/-- Names with ambient `ka` only. -/
theorem C41_name_ambka (d : FDict KV Args) (hd : modelDict P pre = .ok d) (hP : NoBracket P) (hne : P ≠ []) (hsp : PlainSuperposition sp)
    (a : Str) (va : ℚ) (ha : kval a = .ok va) :
    ∃ n, (d.getItem (P ++ (sp ++ "_ambka".toList ++ a))).1 =
      .ok (n, ⟨some (.str (pre ++ sp)), none, some (.num va), none, some (.str "AMB_TI".toList)⟩) := by
  rw [modelDict_facs P pre hP hne] at hd
  simp only [Except.ok.injEq] at hd
  subst hd
  have ca := (kval_ok_chars a va ha).1
  apply getItem_of_firstFac _ _ _ rfl
  rw [firstFac_skip _ _ _ (by
    simp only [kFac, mT]
    rw [matchName_prefix _ _ _ _ hne]
    exact matchGo_none _ _ _ (by decide) (no_ka_amb sp a hsp ca))]
  rw [firstFac_skip _ _ _ (by
    simp only [kFac, mT]
    rw [matchName_prefix _ _ _ _ hne, matchGo_some _ _ _ _ (by decide) (ends_amb sp hsp), matchGo_none _ _ _ (by decide) (no_k_amb a ca)]
    rfl)]
  rw [firstFac_skip _ _ _ (by
    simp only [kFac, mT]
    rw [matchName_prefix _ _ _ _ hne]
    exact matchGo_none _ _ _ (by decide) (no_ka_amb sp a hsp ca))]
  apply firstFac_hit
  have hm : matchName (mT P 3) (P ++ (sp ++ "_ambka".toList ++ a)) = some [sp, a] := by
    simp only [mT]
    rw [matchName_prefix _ _ _ _ hne, matchGo_some _ _ _ _ (by decide) (ends_amb sp hsp), matchGo_last]
    rfl
  rw [construct_of_match (kFac (mT P 3) (supOpts pre) ("_ambka<ambka>", [("ambka", "ka")], ["ambka"], "AMB_TI")) _ [sp, a] _ hm (by
    simp [Fac.loop, kFac, mT, Fac.valOf, Fac.argOf, List.lookup, Opt.eval, ha]
    rfl) rfl]
  simp [report, kFac, updFixed, setKw]

/-- Names with `k`. -/
theorem C41_name_k (d : FDict KV Args) (hd : modelDict P pre = .ok d) (hP : NoBracket P) (hne : P ≠ []) (hsp : PlainSuperposition sp)
    (a : Str) (va : ℚ) (ha : kval a = .ok va) :
    ∃ n, (d.getItem (P ++ (sp ++ "_k".toList ++ a))).1 =
      .ok (n, ⟨some (.str (pre ++ sp)), some (.num va), none, none, some (.str "TI".toList)⟩) := by
  rw [modelDict_facs P pre hP hne] at hd
  simp only [Except.ok.injEq] at hd
  subst hd
  have ca := (kval_ok_chars a va ha).1
  apply getItem_of_firstFac _ _ _ rfl
  rw [firstFac_skip _ _ _ (by
    simp only [kFac, mT]
    rw [matchName_prefix _ _ _ _ hne]
    exact matchGo_none _ _ _ (by decide) (no_ka_k sp a hsp ca))]
  rw [firstFac_skip _ _ _ (by
    simp only [kFac, mT]
    rw [matchName_prefix _ _ _ _ hne]
    exact matchGo_none _ _ _ (by decide) (no_amb_k sp a hsp ca))]
  rw [firstFac_skip _ _ _ (by
    simp only [kFac, mT]
    rw [matchName_prefix _ _ _ _ hne]
    exact matchGo_none _ _ _ (by decide) (no_ka_k sp a hsp ca))]
  rw [firstFac_skip _ _ _ (by
    simp only [kFac, mT]
    rw [matchName_prefix _ _ _ _ hne]
    exact matchGo_none _ _ _ (by decide) (no_amb_k sp a hsp ca))]
  apply firstFac_hit
  have hm : matchName (mT P 4) (P ++ (sp ++ "_k".toList ++ a)) = some [sp, a] := by
    simp only [mT]
    rw [matchName_prefix _ _ _ _ hne, matchGo_some _ _ _ _ (by decide) (ends_k sp hsp), matchGo_last]
    rfl
  rw [construct_of_match (kFac (mT P 4) (supOpts pre) ("_k<k>", [], ["k"], "TI")) _ [sp, a] _ hm (by
    simp [Fac.loop, kFac, mT, Fac.valOf, Fac.argOf, List.lookup, Opt.eval, ha]
    rfl) rfl]
  simp [report, kFac, updFixed, setKw]

/-- Names without wake growth parameter. -/
theorem C41_name_plain (d : FDict KV Args) (hd : modelDict P pre = .ok d) (hP : NoBracket P) (hne : P ≠ []) (hsp : PlainSuperposition sp) :
    ∃ n, (d.getItem (P ++ sp)).1 = .ok (n, ⟨some (.str (pre ++ sp)), none, none, none, some (.str "TI".toList)⟩) := by
  rw [modelDict_facs P pre hP hne] at hd
  simp only [Except.ok.injEq] at hd
  subst hd
  apply getItem_of_firstFac _ _ _ rfl
  rw [firstFac_skip _ _ _ (by
    simp only [kFac, mT]
    rw [matchName_prefix _ _ _ _ hne]
    exact matchGo_none _ _ _ (by decide) (plain_ka sp hsp))]
  rw [firstFac_skip _ _ _ (by
    simp only [kFac, mT]
    rw [matchName_prefix _ _ _ _ hne]
    exact matchGo_none _ _ _ (by decide) hsp.2)]
  rw [firstFac_skip _ _ _ (by
    simp only [kFac, mT]
    rw [matchName_prefix _ _ _ _ hne]
    exact matchGo_none _ _ _ (by decide) (plain_ka sp hsp))]
  rw [firstFac_skip _ _ _ (by
    simp only [kFac, mT]
    rw [matchName_prefix _ _ _ _ hne]
    exact matchGo_none _ _ _ (by decide) hsp.2)]
  rw [firstFac_skip _ _ _ (by
    simp only [kFac, mT]
    rw [matchName_prefix _ _ _ _ hne]
    exact matchGo_none _ _ _ (by decide) hsp.1)]
  apply firstFac_hit
  have hm : matchName (mT P 5) (P ++ sp) = some [sp] := by
    simp only [mT]
    rw [matchName_prefix _ _ _ _ hne, matchGo_last]
  rw [construct_of_match (kFac (mT P 5) (supOpts pre) ("", [], [], "TI")) _ [sp] _ hm (by
    simp [Fac.loop, kFac, mT, Fac.valOf, Fac.argOf, List.lookup, Opt.eval]
    rfl) rfl]
  simp [report, kFac, updFixed, setKw]

/-- the hypotheses of the theorems hold for the names of the model book -/
example : NoBracket "Jensen_".toList ∧ PlainSuperposition "quadratic_amb_lim".toList ∧ (∃ d, modelDict "Jensen_".toList "ws_".toList = .ok d) := by
  refine ⟨by unfold NoBracket; decide, ⟨by decide +kernel, by decide +kernel⟩, ⟨_, modelDict_facs _ _ (by unfold NoBracket; decide) (by decide)⟩⟩

/-! ### The family without variables, `yawed_[wake_k]` -/

/-- `wake_frames.add_k_factory(cls, "yawed_[wake_k]")` -/
def yawedDict : Except Err (FDict KV Args) := addKFactory emptyDict "yawed".toList [] [] [] report

/-- the result of a lookup -/
def look (d : Except Err (FDict KV Args)) (key : String) : Except Err Args :=
  match d with
  | .error e => .error e
  | .ok d => match (d.getItem key.toList).1 with
    | .error e => .error e
    | .ok x => .ok x.2

/-- A growth parameter that is not written as expected is silently dropped: the last factory accepts all continuations of its name, and the frame is
constructed without any growth parameter. -/
theorem C41_yawed_misspelt_accepted :
    look yawedDict "yawed_k004" = .ok ⟨none, some (.num (1 / 25)), none, none, some (.str "TI".toList)⟩ ∧
    look yawedDict "yawed_k0.04" = .ok ⟨none, none, none, none, some (.str "TI".toList)⟩ ∧
    look yawedDict "yawed_ka02_kc001" = .ok ⟨none, none, none, none, some (.str "TI".toList)⟩ := by
  refine ⟨by decide +kernel, by decide +kernel, by decide +kernel⟩

/-- ... but an empty value raises an IndexError. -/
theorem C41_yawed_empty_value : look yawedDict "yawed_k" = .error .indexError := by decide +kernel

end Foxes.Props.FactoryK
