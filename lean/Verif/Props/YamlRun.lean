import Verif.Model.YamlRun
import Verif.Props.WioAttrs

/-!
C70: running foxes from a dictionary or a file.
-/

namespace Foxes.Props.YamlRun
open Foxes.YamlRun
open Foxes.WindIO (Err item put)
open Foxes.Props.WindIO (bind_ok lookup_put keys_put nodup_put lookup_ne)
open Foxes.Props.WioAttrs (item_ok pure_ok ok_bind mapM_ok)

/-! ### Specification -/

/-- The value of the last pair with key `k`. -/
def lastOf {V : Type} (k : String) (l : List (String × V)) : Option V := l.reverse.lookup k

/-- `o.f` applied one after the other, each application succeeds. -/
inductive Chain {S X : Type} (step : S → X → S → Prop) : S → List X → S → Prop where
  | nil (s : S) : Chain step s [] s
  | cons {s s' s'' : S} {x : X} {l : List X} : step s x s' → Chain step s' l s'' → Chain step s (x :: l) s''

/-! ### Auxiliary lemmas -/

lemma lookup_append' {V : Type} (k : String) : ∀ a b : List (String × V), (a ++ b).lookup k = (a.lookup k).or (b.lookup k)
  | [], b => by simp
  | (x, v) :: a, b => by
    by_cases h : k = x
    · subst h; simp
    · rw [List.cons_append, lookup_ne h, lookup_ne h, lookup_append' k a b]

lemma lookup_singleton' {V : Type} (k x : String) (v : V) : [(x, v)].lookup k = if k = x then some v else none := by
  by_cases h : k = x
  · subst h; simp
  · rw [lookup_ne h, if_neg h]; rfl

lemma lastOf_cons {V : Type} (k x : String) (v : V) (l : List (String × V)) : lastOf k ((x, v) :: l) = (lastOf k l).or (if k = x then some v else none) := by
  simp only [lastOf, List.reverse_cons, lookup_append', lookup_singleton']

lemma lastOf_append {V : Type} (k : String) (a b : List (String × V)) : lastOf k (a ++ b) = (lastOf k b).or (lastOf k a) := by
  simp only [lastOf, List.reverse_append, lookup_append']

lemma lookup_update {V : Type} (k : String) : ∀ (e d : D V), (update d e).lookup k = (lastOf k e).or (d.lookup k)
  | [], d => by simp [update, lastOf]
  | (x, v) :: e, d => by
    rw [update, List.foldl_cons]
    have := lookup_update k e (put x v d)
    rw [update] at this
    rw [this, lookup_put, lastOf_cons]
    by_cases h : k = x
    · simp only [h, if_true]
      cases lastOf x e <;> rfl
    · simp only [h, if_false]
      cases lastOf k e <;> rfl

lemma foldlM_chain {S X : Type} {f : S → X → Except Err S} : ∀ {l : List X} {s s' : S}, l.foldlM f s = .ok s' → Chain (fun a x b => f a x = .ok b) s l s'
  | [], s, s', h => by
    rw [List.foldlM_nil] at h
    rw [pure_ok h]; exact .nil s
  | x :: l, s, s', h => by
    rw [List.foldlM_cons] at h
    obtain ⟨a, ha, h⟩ := bind_ok h
    exact .cons ha (foldlM_chain h)

lemma chain_foldlM {S X : Type} {f : S → X → Except Err S} {l : List X} {s s' : S} (h : Chain (fun a x b => f a x = .ok b) s l s') : l.foldlM f s = .ok s' := by
  induction h with
  | nil s => rfl
  | cons h1 _ ih => rw [List.foldlM_cons, h1]; exact ih

lemma map_ok {α β : Type} {x : Except Err α} {f : α → β} {b : β} (h : x.map f = .ok b) : ∃ a, x = .ok a ∧ f a = b := by
  cases x with
  | error e => simp [Except.map] at h
  | ok a => exact ⟨a, rfl, by simpa [Except.map] using h⟩

/-! ### Reading the dictionary -/

/-- The states, model book and farm for the constructor of the algorithm: the given object, or the one described by the file. -/
structure Described {V : Type} (o : Ops V) (p : Params V) (i : IDict V) (states mbook farm : V) : Prop where
  states : match p.states with
    | some s => states = s
    | none => ∃ d, i.states = some d ∧ o.newStates d = .ok states
  mbook : match p.mbook with
    | some b => mbook = b
    | none => Chain (fun b (e : String × Option String × D V) b' => ∃ n, e.2.1 = some n ∧ o.addModel b e.1 n e.2.2 = .ok b') o.newBook
        ((i.modelBook.getD []).flatMap (fun s => s.2.map (fun m => (s.1, m)))) mbook
  farm : match p.farm with
    | some f => farm = f
    | none => ∃ fd ls f0, i.windFarm = some fd ∧ fd.layouts = some ls ∧ o.newFarm fd.pars = .ok f0 ∧
        Chain (fun f (e : Option String × D V) f' => ∃ n d, e.1 = some n ∧ o.addLayout f n d = .ok f' ∧
          ∀ k, d.lookup k = if k = "verbosity" ∧ p.verbosity.isSome then p.verbosity.map (fun v => o.int (v - 1)) else e.2.lookup k) f0 ls farm

/-- The value of parameter `k` of the algorithm: from the additional parameters (the last that is not None), else the verbosity, else farm, states and model book, else the
file, where the type is `Iterative` if forced. -/
def algoValue {V : Type} (o : Ops V) (p : Params V) (states mbook farm : V) (file : D V) (k : String) : Option V :=
  (lastOf k (p.algoPars.filter (fun q => !o.isNone q.2))).or <|
  (if k = "verbosity" then p.verbosity.map (fun v => o.int (v - 1)) else none).or <|
  (if k = "farm" then some farm else if k = "states" then some states else if k = "mbook" then some mbook else none).or <|
  if k = "algo_type" ∧ p.iterative = some true then some (o.str "Iterative") else file.lookup k

lemma algoDict_lookup {V : Type} (o : Ops V) (p : Params V) (f s m : V) (a : D V) (k : String) : (algoDict o p f s m a).lookup k = algoValue o p s m f a k := by
  unfold algoDict algoValue
  simp only
  rw [lookup_update]
  congr 1
  have e1 : (if p.iterative = some true then put "algo_type" (o.str "Iterative") a else a).lookup k =
      if k = "algo_type" ∧ p.iterative = some true then some (o.str "Iterative") else a.lookup k := by
    by_cases h : p.iterative = some true
    · simp [h, lookup_put]
    · simp [h]
  have e2 : (update (if p.iterative = some true then put "algo_type" (o.str "Iterative") a else a) [("farm", f), ("states", s), ("mbook", m)]).lookup k =
      (if k = "farm" then some f else if k = "states" then some s else if k = "mbook" then some m else none).or
        (if k = "algo_type" ∧ p.iterative = some true then some (o.str "Iterative") else a.lookup k) := by
    rw [lookup_update, e1]
    congr 1
    simp only [lastOf, List.reverse_cons, List.reverse_nil, List.nil_append, List.cons_append]
    by_cases h1 : k = "mbook"
    · subst h1; rfl
    · rw [lookup_ne h1]
      by_cases h2 : k = "states"
      · subst h2; rfl
      · rw [lookup_ne h2]
        by_cases h3 : k = "farm"
        · subst h3; rfl
        · rw [lookup_ne h3]; simp [h1, h2, h3]
  cases hv : p.verbosity with
  | none => simp only [Option.map_none, ite_self, Option.none_or]; exact e2
  | some v =>
    simp only [Option.map_some]
    rw [lookup_put, e2]
    by_cases h : k = "verbosity"
    · simp [h]
    · simp [h]

lemma flat_chain {S A : Type} {f : String → S → A → Except Err S} : ∀ {l : List (String × List A)} {s s' : S},
    l.foldlM (fun b (e : String × List A) => e.2.foldlM (f e.1) b) s = .ok s' → Chain (fun b (e : String × A) b' => f e.1 b e.2 = .ok b') s (l.flatMap (fun e => e.2.map (fun m => (e.1, m)))) s' := by
  intro l s s' h
  apply foldlM_chain (f := fun b (e : String × A) => f e.1 b e.2)
  rw [← h]
  clear h
  induction l generalizing s with
  | nil => rfl
  | cons e l ih =>
    rw [List.flatMap_cons, List.foldlM_append, List.foldlM_cons, List.foldlM_map]
    congr 1
    funext b
    exact ih

lemma chain_mono {S X : Type} {r q : S → X → S → Prop} (h : ∀ a x b, r a x b → q a x b) {s s' : S} {l : List X} (c : Chain r s l s') : Chain q s l s' := by
  induction c with
  | nil s => exact .nil s
  | cons h1 _ ih => exact .cons (h _ _ _ h1) ih

lemma addLay_ok {V : Type} {o : Ops V} {vb : Option ℤ} {f f' : V} {l : Option String × D V} (h : addLay o vb f l = .ok f') :
    ∃ n d, l.1 = some n ∧ o.addLayout f n d = .ok f' ∧ ∀ k, d.lookup k = if k = "verbosity" ∧ vb.isSome then vb.map (fun v => o.int (v - 1)) else l.2.lookup k := by
  obtain ⟨n, hn, h⟩ := bind_ok h
  cases vb with
  | none => exact ⟨n, l.2, item_ok hn, h, by simp⟩
  | some v => exact ⟨n, _, item_ok hn, h, fun k => by simp [lookup_put]⟩

lemma parts_described {V : Type} {o : Ops V} {p : Params V} {i : IDict V} {r : Parts V} {s m f : V} (hp : p.algo = none) (hr : readParts o p i = .ok r) (hs : r.states = some s)
    (hm : r.mbook = some m) (hf : r.farm = some f) : Described o p i s m f := by
  unfold readParts at hr
  obtain ⟨st, hst, hr⟩ := bind_ok hr
  obtain ⟨mb, hmb, hr⟩ := bind_ok hr
  obtain ⟨fa, hfa, hr⟩ := bind_ok hr
  obtain ⟨e, he, hr⟩ := bind_ok hr
  have hr := pure_ok hr
  subst hr
  rcases fa with ⟨fa, ifa⟩
  simp only at hs hm hf
  subst hs; subst hm; subst hf
  refine ⟨?_, ?_, ?_⟩
  · unfold getStates at hst
    rw [hp] at hst
    cases hs : p.states with
    | some s' =>
      rw [hs] at hst
      simpa [given, Except.map, eq_comm] using hst
    | none =>
      rw [hs] at hst
      obtain ⟨d, hd, hst⟩ := bind_ok hst
      obtain ⟨s', hs', hst⟩ := bind_ok hst
      have := pure_ok hst
      injection this with this
      exact ⟨d, item_ok hd, by rw [this]; exact hs'⟩
  · unfold getBook at hmb
    rw [hp] at hmb
    cases hs : p.mbook with
    | some s' =>
      rw [hs] at hmb
      simpa [given, Except.map, eq_comm] using hmb
    | none =>
      rw [hs] at hmb
      obtain ⟨b, hb, h2⟩ := map_ok hmb
      injection h2 with h2
      subst h2
      refine chain_mono ?_ (flat_chain (f := addOne o) hb)
      intro b e b' hbe
      obtain ⟨n, hn, hbe⟩ := bind_ok hbe
      exact ⟨n, item_ok hn, hbe⟩
  · unfold getFarm at hfa
    rw [hp] at hfa
    cases hs : p.farm with
    | some s' =>
      rw [hs] at hfa
      simp [given, Except.map] at hfa
      exact hfa.1.symm
    | none =>
      rw [hs] at hfa
      obtain ⟨r, hr, h2⟩ := map_ok hfa
      unfold readFarm at hr
      obtain ⟨fd, hfd, hr⟩ := bind_ok hr
      obtain ⟨ls, hls, hr⟩ := bind_ok hr
      obtain ⟨f0, hf0, hr⟩ := bind_ok hr
      obtain ⟨f1, hf1, hr⟩ := bind_ok hr
      have hr := pure_ok hr
      subst hr
      simp only [Prod.mk.injEq, Option.some.injEq] at h2
      refine ⟨fd, ls, f0, item_ok hfd, item_ok hls, hf0, ?_⟩
      rw [← h2.1]
      exact chain_mono (fun a x b hab => addLay_ok hab) (foldlM_chain hf1)

lemma parts_algorithm {V : Type} {o : Ops V} {p : Params V} {i : IDict V} {r : Parts V} (hr : readParts o p i = .ok r) : r.idict.algorithm = i.algorithm := by
  unfold readParts at hr
  obtain ⟨st, hst, hr⟩ := bind_ok hr
  obtain ⟨mb, hmb, hr⟩ := bind_ok hr
  obtain ⟨fa, hfa, hr⟩ := bind_ok hr
  obtain ⟨e, he, hr⟩ := bind_ok hr
  have hr := pure_ok hr
  subst hr
  have h1 : fa.2.algorithm = i.algorithm := by
    unfold getFarm at hfa
    split at hfa
    · obtain ⟨_, _, h2⟩ := map_ok hfa
      rw [← h2]
    · obtain ⟨r, h1, h2⟩ := map_ok hfa
      rw [← h2]
      unfold readFarm at h1
      obtain ⟨_, _, h1⟩ := bind_ok h1
      obtain ⟨_, _, h1⟩ := bind_ok h1
      obtain ⟨_, _, h1⟩ := bind_ok h1
      obtain ⟨_, _, h1⟩ := bind_ok h1
      rw [pure_ok h1]
    · injection hfa with hfa; rw [← hfa]
  simp only
  rw [← h1]
  unfold getEngine at he
  split at he
  · obtain ⟨_, _, h2⟩ := map_ok he; rw [← h2]
  · obtain ⟨_, _, h2⟩ := map_ok he
    rw [← h2]
    cases p.verbosity <;> rfl
  · injection he with he; rw [← he]

lemma getAlgo_ok {V : Type} {o : Ops V} {p : Params V} {f s m : Option V} {i : IDict V} {x : V × IDict V} (hp : p.algo = none) (hx : getAlgo o p f s m i = .ok x) :
    ∃ f' s' m' file, f = some f' ∧ s = some s' ∧ m = some m' ∧ i.algorithm = some file ∧ o.newAlgo (algoDict o p f' s' m' file) = .ok x.1 ∧
      x.2 = { i with algorithm := some (algoDict o p f' s' m' file) } := by
  unfold getAlgo at hx
  rw [hp] at hx
  rcases f with _ | f
  · simp at hx
  rcases s with _ | s
  · simp at hx
  rcases m with _ | m
  · simp at hx
  simp only at hx
  obtain ⟨file, hfile, hx⟩ := bind_ok hx
  obtain ⟨_, _, hx⟩ := bind_ok hx
  obtain ⟨alg, halg, hx⟩ := bind_ok hx
  rw [pure_ok hx]
  exact ⟨f, s, m, file, rfl, rfl, rfl, item_ok hfile, halg, rfl⟩

/-- If no algorithm is given, it is made from the given or described objects and the file, and every parameter of it has the value of highest priority. -/
theorem C70_algorithm {V : Type} (o : Ops V) (p : Params V) (i i' : IDict V) (a : V) (en : Option V) (hp : p.algo = none) (h : readDict o p i = .ok (a, en, i')) :
    ∃ states mbook farm file ad, Described o p i states mbook farm ∧ i.algorithm = some file ∧ o.newAlgo ad = .ok a ∧ i'.algorithm = some ad ∧
      ∀ k, ad.lookup k = algoValue o p states mbook farm file k := by
  obtain ⟨r, hr, h⟩ := bind_ok h
  obtain ⟨x, hx, h⟩ := bind_ok h
  obtain ⟨f, s, m, file, hf, hs, hm, hfile, ha, hi⟩ := getAlgo_ok hp hx
  have h := Prod.mk.inj (pure_ok h)
  refine ⟨s, m, f, file, _, parts_described hp hr hs hm hf, by rw [← parts_algorithm hr]; exact hfile, by rw [h.1]; exact ha, ?_, fun k => algoDict_lookup ..⟩
  rw [(Prod.mk.inj h.2).2, hi]

/-- An algorithm together with a farm, states or a model book is refused. -/
theorem C70_both_refused {V : Type} (o : Ops V) (p : Params V) (i : IDict V) (ha : p.algo.isSome) (h : p.farm.isSome ∨ p.states.isSome ∨ p.mbook.isSome) :
    readDict o p i = .error .value := by
  obtain ⟨a, ha⟩ := Option.isSome_iff_exists.1 ha
  have hs : getStates o p i = if p.states.isSome then .error .value else .ok none := by
    unfold getStates; rw [ha]; cases p.states <;> simp [given, Except.map]
  have hb : getBook o p i = if p.mbook.isSome then .error .value else .ok none := by
    unfold getBook; rw [ha]; cases p.mbook <;> simp [given, Except.map]
  have hf : getFarm o p i = if p.farm.isSome then .error .value else .ok (none, i) := by
    unfold getFarm; rw [ha]; cases p.farm <;> simp [given, Except.map]
  unfold readDict readParts
  rw [hs, hb, hf]
  by_cases h1 : p.states.isSome
  · rw [if_pos h1]; rfl
  · rw [if_neg h1]
    by_cases h2 : p.mbook.isSome
    · rw [if_pos h2]; rfl
    · rw [if_neg h2]
      by_cases h3 : p.farm.isSome
      · rw [if_pos h3]; rfl
      · tauto

lemma readDict_given {V : Type} (o : Ops V) (p : Params V) (i : IDict V) (a : V) (ha : p.algo = some a) (hf : p.farm = none) (hs : p.states = none) (hb : p.mbook = none) :
    readDict o p i = (getEngine o p i).map (fun e => (a, e.1, e.2)) := by
  have hs : getStates o p i = .ok none := by unfold getStates; rw [ha, hs]
  have hb : getBook o p i = .ok none := by unfold getBook; rw [ha, hb]
  have hf : getFarm o p i = .ok (none, i) := by unfold getFarm; rw [ha, hf]
  unfold readDict readParts
  rw [hs, hb, hf]
  have hg : ∀ j, getAlgo o p none none none j = .ok (a, j) := by intro j; unfold getAlgo; rw [ha]
  simp only [Except.bind, bind, pure, Except.pure]
  cases getEngine o p i with
  | error e => rfl
  | ok e => simp only [hg, Except.map]

/-- A given algorithm is used as it is. -/
theorem C70_given_algorithm {V : Type} (o : Ops V) (p : Params V) (i i' : IDict V) (a b : V) (en : Option V) (ha : p.algo = some a) (h : readDict o p i = .ok (b, en, i')) : b = a := by
  by_cases hx : p.farm.isSome ∨ p.states.isSome ∨ p.mbook.isSome
  · rw [C70_both_refused o p i (by simp [ha]) hx] at h; simp at h
  · rw [readDict_given o p i a ha (by by_contra h; exact hx (.inl (Option.isSome_iff_ne_none.2 h))) (by by_contra h; exact hx (.inr (.inl (Option.isSome_iff_ne_none.2 h))))
      (by by_contra h; exact hx (.inr (.inr (Option.isSome_iff_ne_none.2 h))))] at h
    obtain ⟨e, _, he⟩ := map_ok h
    exact (Prod.mk.inj he).1.symm

/-- Finding: with a given algorithm the arguments `iterative` and all additional parameters have no effect, although they are documented to overrule. -/
theorem C70_given_algorithm_ignores {V : Type} (o : Ops V) (p : Params V) (i : IDict V) (ha : p.algo.isSome) (it : Option Bool) (ap : D V) :
    readDict o { p with iterative := it, algoPars := ap } i = readDict o p i := by
  by_cases hx : p.farm.isSome ∨ p.states.isSome ∨ p.mbook.isSome
  · exact (C70_both_refused o { p with iterative := it, algoPars := ap } i ha hx).trans (C70_both_refused o p i ha hx).symm
  · obtain ⟨a, ha⟩ := Option.isSome_iff_exists.1 ha
    have h1 : p.farm = none := by by_contra h; exact hx (.inl (Option.isSome_iff_ne_none.2 h))
    have h2 : p.states = none := by by_contra h; exact hx (.inr (.inl (Option.isSome_iff_ne_none.2 h)))
    have h3 : p.mbook = none := by by_contra h; exact hx (.inr (.inr (Option.isSome_iff_ne_none.2 h)))
    exact (readDict_given o { p with iterative := it, algoPars := ap } i a ha h1 h2 h3).trans (readDict_given o p i a ha h1 h2 h3).symm

lemma getFarm_engine {V : Type} {o : Ops V} {p : Params V} {i : IDict V} {r : Option V × IDict V} (h : getFarm o p i = .ok r) : r.2.engine = i.engine := by
  unfold getFarm at h
  split at h
  · obtain ⟨_, _, h⟩ := map_ok h; rw [← h]
  · obtain ⟨x, h1, h⟩ := map_ok h
    rw [← h]
    unfold readFarm at h1
    obtain ⟨_, _, h1⟩ := bind_ok h1
    obtain ⟨_, _, h1⟩ := bind_ok h1
    obtain ⟨_, _, h1⟩ := bind_ok h1
    obtain ⟨_, _, h1⟩ := bind_ok h1
    rw [pure_ok h1]
  · injection h with h; rw [← h]

/-- The engine: made from the given parameters, or else from those of the file, and there is none if there are no parameters. -/
theorem C70_engine {V : Type} (o : Ops V) (p : Params V) (i i' : IDict V) (a : V) (en : Option V) (h : readDict o p i = .ok (a, en, i')) :
    match p.enginePars.or i.engine with
    | some d => ∃ e, en = some e ∧ o.newEngine d = .ok e
    | none => en = none := by
  obtain ⟨r, hr, h⟩ := bind_ok h
  obtain ⟨x, hx, h⟩ := bind_ok h
  have h := (Prod.mk.inj (Prod.mk.inj (pure_ok h)).2).1
  unfold readParts at hr
  obtain ⟨st, hst, hr⟩ := bind_ok hr
  obtain ⟨mb, hmb, hr⟩ := bind_ok hr
  obtain ⟨fa, hfa, hr⟩ := bind_ok hr
  obtain ⟨e, he, hr⟩ := bind_ok hr
  have hr := pure_ok hr
  subst hr
  simp only at h
  unfold getEngine at he
  rw [getFarm_engine hfa] at he
  split at he
  · next d _ h1 =>
    obtain ⟨v, hv, h2⟩ := map_ok he
    simp only [h1, Option.some_or]
    exact ⟨v, by rw [h, ← h2], hv⟩
  · next d h1 h3 =>
    obtain ⟨v, hv, h2⟩ := map_ok he
    simp only [h1, h3, Option.none_or]
    exact ⟨v, by rw [h, ← h2], hv⟩
  · next h1 h3 =>
    injection he with he
    simp only [h1, h3, Option.none_or]
    rw [h, ← he]

/-- Finding: the engine of the file does not depend on the forced verbosity, which goes to an entry `verbosity` of the dictionary that is not used. -/
theorem C70_engine_verbosity_not_forced {V : Type} (o : Ops V) (p : Params V) (i i' : IDict V) (a : V) (en : Option V) (d : D V) (v : ℤ) (he : p.enginePars = none)
    (hd : i.engine = some d) (hv : p.verbosity = some v) (h : readDict o p i = .ok (a, en, i')) :
    (∃ e, en = some e ∧ o.newEngine d = .ok e) ∧ i'.verbosity = some (o.int (v - 1)) := by
  refine ⟨by simpa [he, hd] using C70_engine o p i i' a en h, ?_⟩
  obtain ⟨r, hr, h⟩ := bind_ok h
  obtain ⟨x, hx, h⟩ := bind_ok h
  have hii := (Prod.mk.inj (Prod.mk.inj (pure_ok h)).2).2
  unfold readParts at hr
  obtain ⟨st, hst, hr⟩ := bind_ok hr
  obtain ⟨mb, hmb, hr⟩ := bind_ok hr
  obtain ⟨fa, hfa, hr⟩ := bind_ok hr
  obtain ⟨e, hee, hr⟩ := bind_ok hr
  have hr := pure_ok hr
  subst hr
  simp only at hx
  unfold getEngine at hee
  rw [getFarm_engine hfa, he, hd, hv] at hee
  obtain ⟨w, _, hw⟩ := map_ok hee
  have hev : e.2.verbosity = some (o.int (v - 1)) := by rw [← hw]
  rw [hii, ← hev]
  unfold getAlgo at hx
  split at hx
  · injection hx with hx; rw [← hx]
  · obtain ⟨_, _, hx⟩ := bind_ok hx
    obtain ⟨_, _, hx⟩ := bind_ok hx
    obtain ⟨_, _, hx⟩ := bind_ok hx
    rw [pure_ok hx]
  · simp at hx

/-! ### Labels -/

/-- The text of a label with indices, like `$x[0,1]`. -/
def indexed (name : List Char) (inds : List ℕ) : List Char := name ++ '[' :: (List.intercalate [','] (inds.map (fun n => (Nat.repr n).toList)) ++ [']'])

/-- A name as it is allowed in labels. -/
def Plain (s : List Char) : Prop := s ≠ [] ∧ '[' ∉ s ∧ ']' ∉ s ∧ ',' ∉ s

lemma cutBracket_none : ∀ s : List Char, '[' ∉ s → cutBracket s = (s, none)
  | [], _ => rfl
  | c :: s, h => by
    have h1 : c ≠ '[' := fun e => h (by simp [e])
    rw [cutBracket, if_neg h1, cutBracket_none s (fun e => h (by simp [e]))]

lemma cutBracket_append : ∀ s t : List Char, '[' ∉ s → cutBracket (s ++ '[' :: t) = (s, some t)
  | [], t, _ => rfl
  | c :: s, t, h => by
    have h1 : c ≠ '[' := fun e => h (by simp [e])
    rw [List.cons_append, cutBracket, if_neg h1, cutBracket_append s t (fun e => h (by simp [e]))]

lemma filter_id {s : List Char} (h : ']' ∉ s) : s.filter (· ≠ ']') = s := by
  rw [List.filter_eq_self]
  intro c hc
  simp only [ne_eq, decide_eq_true_eq]
  rintro rfl
  exact h hc

/-- A label stands for the result stored under it. -/
theorem C70_label {V : Type} (o : OutOps V) (rl : D V) (s : String) (h : Plain s.toList) : getObject o rl s = item (rl.lookup s) := by
  unfold getObject
  simp only [filter_id h.2.2.1, cutBracket_none _ h.2.1, String.ofList_toList]
  cases s.toList <;> rfl

lemma split_inds (sep : Char) (hsep : sep.isDigit = false) : ∀ (n : ℕ) (inds : List ℕ),
    Factory.pySplit sep (List.intercalate [sep] ((n :: inds).map (fun n => (Nat.repr n).toList))) = (n :: inds).map (fun n => (Nat.repr n).toList) := by
  have hno : ∀ n : ℕ, sep ∉ (Nat.repr n).toList := by
    intro n hc
    have := List.all_eq_true.1 (Foxes.Props.Factory.isDigit_repr n) _ hc
    rw [hsep] at this; simp at this
  intro n inds
  induction inds generalizing n with
  | nil => simpa using Foxes.Factory.pySplit_nomem _ _ (hno n)
  | cons m inds ih =>
    have := ih m
    simp only [List.map_cons] at this ⊢
    rw [List.intercalate_cons_cons, List.append_assoc, List.singleton_append]
    rw [Foxes.Factory.pySplit_append _ _ _ (hno n), this]

lemma mapM_pyInt : ∀ inds : List ℕ, (inds.map (fun n => (Nat.repr n).toList)).mapM pyInt = .ok inds
  | [] => rfl
  | n :: inds => by
    rw [List.map_cons, List.mapM_cons, mapM_pyInt inds]
    have : pyInt (Nat.repr n).toList = .ok n := by
      unfold pyInt
      have hne : (Nat.repr n).toList ≠ [] := by rw [Nat.toList_repr]; exact Nat.toDigits_ne_nil
      rw [if_pos ⟨hne, Foxes.Props.Factory.isDigit_repr n⟩, Foxes.Props.Factory.digitsVal_repr]
    rw [this]; rfl

/-- A label with indices stands for the part of the stored result with these indices. -/
theorem C70_label_indexed {V : Type} (o : OutOps V) (rl : D V) (name : List Char) (inds : List ℕ) (h : Plain name) (hi : inds ≠ []) :
    getObject o rl (String.ofList (indexed name inds)) = item (rl.lookup (String.ofList name)) >>= fun v => o.index v inds := by
  obtain ⟨n, inds, rfl⟩ := List.exists_cons_of_ne_nil hi
  obtain ⟨c, name, rfl⟩ := List.exists_cons_of_ne_nil h.1
  have hd : ∀ m : ℕ, ∀ d : Char, d.isDigit = false → d ∉ (Nat.repr m).toList := by
    intro m d hd hc
    have := List.all_eq_true.1 (Foxes.Props.Factory.isDigit_repr m) _ hc
    rw [hd] at this; simp at this
  have hb : ']' ∉ List.intercalate [','] ((n :: inds).map (fun n => (Nat.repr n).toList)) := by
    intro hc
    have : ∀ l : List (List Char), ']' ∈ List.intercalate [','] l → ∃ x ∈ l, ']' ∈ x := by
      intro l
      induction l with
      | nil => simp
      | cons a l ih =>
        cases l with
        | nil => simp
        | cons b l =>
          rw [List.intercalate_cons_cons]
          simp only [List.mem_append, List.mem_singleton]
          rintro ((h | h) | h)
          · exact ⟨a, by simp, h⟩
          · exact absurd h (by decide)
          · obtain ⟨x, hx, hx'⟩ := ih h
            exact ⟨x, by simp at hx ⊢; tauto, hx'⟩
    obtain ⟨x, hx, hx'⟩ := this _ hc
    rw [List.mem_map] at hx
    obtain ⟨m, _, rfl⟩ := hx
    exact hd m ']' (by decide) hx'
  unfold getObject
  simp only [String.toList_ofList]
  have hf : (indexed (c :: name) (n :: inds)).filter (· ≠ ']') = (c :: name) ++ '[' :: List.intercalate [','] ((n :: inds).map (fun n => (Nat.repr n).toList)) := by
    unfold indexed
    rw [List.filter_append, filter_id h.2.2.1, List.filter_cons, if_pos (by decide), List.filter_append, filter_id hb]
    simp
  simp only [hf, cutBracket_append _ _ h.2.1]
  rw [split_inds ',' (by decide), mapM_pyInt]
  rfl

/-- Labels of results: `$` followed by text without brackets and commas is stored, a few names mean that the result is dropped, everything else is refused. -/
theorem C70_label_stored {V : Type} (rl rl' : D V) (k : String) (r : V) : setLabel rl k r = .ok rl' ↔
    (k ∈ ["", "none", "None", "_", "__"] ∧ rl' = rl) ∨ (∃ t, k.toList = '$' :: t ∧ '[' ∉ t ∧ ']' ∉ t ∧ ',' ∉ t ∧ rl' = put k r rl) := by
  have hdis : k ∈ ["", "none", "None", "_", "__"] → ∀ t, k.toList ≠ '$' :: t := by
    intro hk t ht
    simp only [List.mem_cons, List.not_mem_nil, or_false] at hk
    rcases hk with rfl | rfl | rfl | rfl | rfl <;> simp at ht
  unfold setLabel ignored
  by_cases h1 : k ∈ ["", "none", "None", "_", "__"]
  · rw [if_pos (by simpa using h1)]
    constructor
    · intro h; injection h with h; exact .inl ⟨h1, h.symm⟩
    · rintro (⟨_, h⟩ | ⟨t, ht, _⟩)
      · rw [h]
      · exact absurd ht (hdis h1 t)
  · rw [if_neg (by simpa using h1)]
    cases hk : k.toList with
    | nil =>
      rw [if_pos (by simp)]
      simp [h1]
    | cons c t =>
      by_cases hc : c = '$'
      · subst hc
        rw [if_neg (by simp)]
        simp only [List.mem_cons, show ('[' : Char) ≠ '$' by decide, show (']' : Char) ≠ '$' by decide, show (',' : Char) ≠ '$' by decide, false_or]
        by_cases hb : '[' ∈ t ∨ ']' ∈ t ∨ ',' ∈ t
        · rw [if_pos hb]
          constructor
          · intro h; simp at h
          · rintro (⟨h, _⟩ | ⟨t', ht, h⟩)
            · exact absurd (by simpa using h) h1
            · injection ht with _ ht
              subst ht
              tauto
        · rw [if_neg hb]
          constructor
          · intro h
            injection h with h
            exact .inr ⟨t, rfl, by tauto, by tauto, by tauto, h.symm⟩
          · rintro (⟨h, _⟩ | ⟨t', ht, _, _, _, h⟩)
            · exact absurd (by simpa using h) h1
            · rw [h]
      · rw [if_pos (by simpa using hc)]
        constructor
        · intro h; simp at h
        · rintro (⟨h, _⟩ | ⟨t', ht, _⟩)
          · exact absurd (by simpa using h) h1
          · injection ht with ht _
            exact absurd ht hc

/-! ### Outputs -/

/-- A parameter of a function, where the pairs in `h` have been stored so far: values and ordinary strings stand for themselves, a string that starts with `$` refers to the results. -/
def ArgMeans {V : Type} (o : OutOps V) (h : List (String × V)) (a : Arg V) (v : V) : Prop :=
  match a with
  | .val x => v = x
  | .str s => s ≠ "" ∧ if s.toList.head? = some '$' then getObject o h.reverse s = .ok v else v = o.str s

/-- The label `k` leads to the pairs `new`. -/
def LabelMeans {V : Type} (k : String) (r : V) (new : List (String × V)) : Prop :=
  (k ∈ ["", "none", "None", "_", "__"] ∧ new = []) ∨ (∃ t, k.toList = '$' :: t ∧ '[' ∉ t ∧ ']' ∉ t ∧ ',' ∉ t ∧ new = [(k, r)])

/-- The pairs that are stored for a result: the result itself for one label, its parts for a list of labels. -/
def Stored {V : Type} (o : OutOps V) (res : V) (ls : Option Labels) (new : List (String × V)) : Prop :=
  match ls with
  | none => new = []
  | some (.one k) => LabelMeans k res new
  | some (.many l) => ∃ parts : List (List (String × V)), new = parts.flatten ∧ parts.length = l.length ∧
      ∀ (j : ℕ) (k : String) (x : List (String × V)), l[j]? = some k → parts[j]? = some x → ∃ r, o.nth res j = .ok r ∧ LabelMeans k r x

/-- A call of a function of an object, with the pairs stored before and after. -/
def FunRun {V : Type} (o : OutOps V) (obj : V) (h : List (String × V)) (f : FunD V) (res : V) (h' : List (String × V)) : Prop :=
  ∃ n args r new, f.fn = some n ∧ List.Forall₂ (fun a b => b.1 = a.1 ∧ ArgMeans o h a.2 b.2) f.args args ∧ o.call obj n args = .ok r ∧
    res = (if f.pltClose then o.none else r) ∧ h' = h ++ new ∧ Stored o res f.labels new

/-- Calls one after the other. -/
inductive FunsRun {V : Type} (o : OutOps V) (obj : V) : List (String × V) → List (FunD V) → List V → List (String × V) → Prop where
  | nil (h) : FunsRun o obj h [] [] h
  | cons {h f r h' l rs h''} : FunRun o obj h f r h' → FunsRun o obj h' l rs h'' → FunsRun o obj h (f :: l) (r :: rs) h''

/-- One output: skipped if its class needs farm results and there are none; else all functions are called on the new object, or on the object a label refers to. -/
def OutRun {V : Type} (o : OutOps V) (fr : Bool) (h : List (String × V)) (d : OutD V) (r : Option (List V)) (h' : List (String × V)) : Prop :=
  ∃ fs, d.functions = some fs ∧
    ((∃ t, d.type = some t ∧ o.needsFarmResults t = true ∧ fr = false ∧ r = none ∧ h' = h) ∨
     (∃ t obj rs, d.type = some t ∧ ¬ (o.needsFarmResults t = true ∧ fr = false) ∧ o.new t d.pars = .ok obj ∧ FunsRun o obj h fs rs h' ∧ r = some rs) ∨
     (∃ l obj rs, d.type = none ∧ d.object = some l ∧ getObject o h.reverse l = .ok obj ∧ FunsRun o obj h fs rs h' ∧ r = some rs))

/-- Outputs one after the other. -/
inductive OutsRun {V : Type} (o : OutOps V) (fr : Bool) : List (String × V) → List (OutD V) → List (Option (List V)) → List (String × V) → Prop where
  | nil (h) : OutsRun o fr h [] [] h
  | cons {h d r h' l rs h''} : OutRun o fr h d r h' → OutsRun o fr h' l rs h'' → OutsRun o fr h (d :: l) (r :: rs) h''

/-- The table has the latest value for every label. -/
def Latest {V : Type} (rl : D V) (h : List (String × V)) : Prop := ∀ k, rl.lookup k = lastOf k h

lemma getObject_latest {V : Type} (o : OutOps V) {rl : D V} {h : List (String × V)} (hl : Latest rl h) (s : String) : getObject o rl s = getObject o h.reverse s := by
  have : ∀ k, rl.lookup k = h.reverse.lookup k := hl
  unfold getObject
  simp only [this]

lemma resolve_iff {V : Type} (o : OutOps V) {rl : D V} {h : List (String × V)} (hl : Latest rl h) (a : String × Arg V) (b : String × V) :
    resolve o rl a = .ok b ↔ b.1 = a.1 ∧ ArgMeans o h a.2 b.2 := by
  obtain ⟨n, a⟩ := a
  obtain ⟨m, v⟩ := b
  cases a with
  | val x =>
    simp only [resolve, ArgMeans]
    constructor
    · intro e; injection e with e; injection e with e1 e2; exact ⟨e1.symm, e2.symm⟩
    · rintro ⟨rfl, rfl⟩; rfl
  | str s =>
    simp only [resolve, ArgMeans]
    cases hs : s.toList with
    | nil =>
      have : s = "" := by rw [← String.ofList_toList (s := s), hs]
      simp [this]
    | cons c t =>
      have hne : s ≠ "" := by rintro rfl; simp at hs
      simp only [List.head?_cons, Option.some.injEq, hne, ne_eq, not_false_eq_true, true_and]
      by_cases hc : c = '$'
      · rw [if_pos hc, if_pos hc, getObject_latest o hl]
        cases getObject o h.reverse s with
        | error e => simp [Except.map]
        | ok w => simp only [Except.map, Except.ok.injEq, Prod.mk.injEq]; exact ⟨fun ⟨a, b⟩ => ⟨a.symm, b⟩, fun ⟨a, b⟩ => ⟨a.symm, b⟩⟩
      · rw [if_neg hc, if_neg hc]
        simp only [Except.ok.injEq, Prod.mk.injEq]
        exact ⟨fun ⟨a, b⟩ => ⟨a.symm, b.symm⟩, fun ⟨a, b⟩ => ⟨a.symm, b.symm⟩⟩

lemma mapM_iff {α β : Type} {f : α → Except Err β} : ∀ {l : List α} {r : List β}, l.mapM f = .ok r ↔ List.Forall₂ (fun x y => f x = .ok y) l r := by
  intro l r
  refine ⟨mapM_ok, fun h => ?_⟩
  induction h with
  | nil => rfl
  | cons h1 _ ih => rw [List.mapM_cons, h1, ih]; rfl

lemma latest_put {V : Type} {rl : D V} {h : List (String × V)} (hl : Latest rl h) (k : String) (r : V) : Latest (put k r rl) (h ++ [(k, r)]) := by
  intro x
  rw [lookup_put, lastOf_append, hl x]
  simp only [lastOf, List.reverse_cons, List.reverse_nil, List.nil_append, lookup_singleton']
  by_cases hx : x = k
  · simp [hx]
  · simp [hx]

lemma setLabel_iff {V : Type} {rl : D V} {h : List (String × V)} (hl : Latest rl h) (k : String) (r : V) :
    (∀ rl', setLabel rl k r = .ok rl' → ∃ new, LabelMeans k r new ∧ Latest rl' (h ++ new)) ∧ (∀ new, LabelMeans k r new → ∃ rl', setLabel rl k r = .ok rl' ∧ Latest rl' (h ++ new)) := by
  constructor
  · intro rl' e
    rcases (C70_label_stored rl rl' k r).1 e with ⟨h1, h2⟩ | ⟨t, h1, h2, h3, h4, h5⟩
    · exact ⟨[], .inl ⟨h1, rfl⟩, by rw [h2]; simpa using hl⟩
    · exact ⟨[(k, r)], .inr ⟨t, h1, h2, h3, h4, rfl⟩, by rw [h5]; exact latest_put hl k r⟩
  · rintro new (⟨h1, rfl⟩ | ⟨t, h1, h2, h3, h4, rfl⟩)
    · exact ⟨rl, (C70_label_stored rl rl k r).2 (.inl ⟨h1, rfl⟩), by simpa using hl⟩
    · exact ⟨_, (C70_label_stored rl _ k r).2 (.inr ⟨t, h1, h2, h3, h4, rfl⟩), latest_put hl k r⟩

lemma setMany_iff {V : Type} (o : OutOps V) (res : V) : ∀ (l : List String) (i : ℕ) (rl : D V) (h : List (String × V)), Latest rl h →
    (∀ rl', setMany o res i rl l = .ok rl' → ∃ parts : List (List (String × V)), parts.length = l.length ∧
      (∀ (j : ℕ) (k : String) (x : List (String × V)), l[j]? = some k → parts[j]? = some x → ∃ r, o.nth res (i + j) = .ok r ∧ LabelMeans k r x) ∧ Latest rl' (h ++ parts.flatten)) ∧
    (∀ parts : List (List (String × V)), parts.length = l.length →
      (∀ (j : ℕ) (k : String) (x : List (String × V)), l[j]? = some k → parts[j]? = some x → ∃ r, o.nth res (i + j) = .ok r ∧ LabelMeans k r x) →
      ∃ rl', setMany o res i rl l = .ok rl' ∧ Latest rl' (h ++ parts.flatten))
  | [], i, rl, h, hl => by
    constructor
    · intro rl' e
      injection e with e
      exact ⟨[], rfl, by simp, by rw [← e]; simpa using hl⟩
    · intro parts hp _
      have : parts = [] := List.length_eq_zero_iff.1 hp
      subst this
      exact ⟨rl, rfl, by simpa using hl⟩
  | k :: l, i, rl, h, hl => by
    constructor
    · intro rl' e
      unfold setMany at e
      obtain ⟨r, hr, e⟩ := bind_ok e
      obtain ⟨rl1, h1, e⟩ := bind_ok e
      obtain ⟨new, hn, hl1⟩ := (setLabel_iff hl k r).1 rl1 h1
      obtain ⟨parts, hp, hj, hl2⟩ := (setMany_iff o res l (i + 1) rl1 (h ++ new) hl1).1 rl' e
      refine ⟨new :: parts, by simp [hp], ?_, by simpa using hl2⟩
      intro j k' x hk hx
      cases j with
      | zero =>
        simp only [List.getElem?_cons_zero, Option.some.injEq] at hk hx
        subst hk; subst hx
        exact ⟨r, hr, hn⟩
      | succ j =>
        simp only [List.getElem?_cons_succ] at hk hx
        have := hj j k' x hk hx
        rwa [show i + 1 + j = i + (j + 1) by omega] at this
    · intro parts hp hj
      cases parts with
      | nil => simp at hp
      | cons new parts =>
        obtain ⟨r, hr, hn⟩ := hj 0 k new rfl rfl
        obtain ⟨rl1, h1, hl1⟩ := (setLabel_iff hl k r).2 new hn
        obtain ⟨rl', e, hl2⟩ := (setMany_iff o res l (i + 1) rl1 (h ++ new) hl1).2 parts (by simpa using hp) (by
          intro j k' x hk hx
          have := hj (j + 1) k' x (by simpa using hk) (by simpa using hx)
          rwa [show i + (j + 1) = i + 1 + j by omega] at this)
        refine ⟨rl', ?_, by simpa using hl2⟩
        unfold setMany
        rw [ok_bind _ (show o.nth res i = .ok r from hr), ok_bind _ h1, e]

lemma store_iff {V : Type} (o : OutOps V) (res : V) (ls : Option Labels) {rl : D V} {h : List (String × V)} (hl : Latest rl h) :
    (∀ rl', store o res rl ls = .ok rl' → ∃ new, Stored o res ls new ∧ Latest rl' (h ++ new)) ∧ (∀ new, Stored o res ls new → ∃ rl', store o res rl ls = .ok rl' ∧ Latest rl' (h ++ new)) := by
  match ls with
  | none =>
    refine ⟨fun rl' e => ⟨[], rfl, ?_⟩, fun new hn => ⟨rl, rfl, ?_⟩⟩
    · injection e with e; rw [← e]; simpa using hl
    · have : new = [] := hn
      rw [this]; simpa using hl
  | some (.one k) => exact setLabel_iff hl k res
  | some (.many l) =>
    obtain ⟨h1, h2⟩ := setMany_iff o res l 0 rl h hl
    constructor
    · intro rl' e
      obtain ⟨parts, hp, hj, hl'⟩ := h1 rl' e
      exact ⟨_, ⟨parts, rfl, hp, by simpa using hj⟩, hl'⟩
    · rintro new ⟨parts, rfl, hp, hj⟩
      exact h2 parts hp (by simpa using hj)

lemma runFunction_iff {V : Type} (o : OutOps V) (obj : V) (f : FunD V) {rl : D V} {h : List (String × V)} (hl : Latest rl h) :
    (∀ res rl', runFunction o obj f rl = .ok (res, rl') → ∃ h', FunRun o obj h f res h' ∧ Latest rl' h') ∧
    (∀ res h', FunRun o obj h f res h' → ∃ rl', runFunction o obj f rl = .ok (res, rl') ∧ Latest rl' h') := by
  constructor
  · intro res rl' e
    unfold runFunction at e
    obtain ⟨n, hn, e⟩ := bind_ok e
    obtain ⟨args, ha, e⟩ := bind_ok e
    obtain ⟨r, hr, e⟩ := bind_ok e
    obtain ⟨rl1, h1, e⟩ := bind_ok e
    have e := Prod.mk.inj (pure_ok e)
    obtain ⟨new, hn', hl'⟩ := (store_iff o _ f.labels hl).1 rl1 h1
    refine ⟨h ++ new, ⟨n, args, r, new, item_ok hn, ?_, hr, e.1, rfl, by rw [e.1]; exact hn'⟩, by rw [e.2]; exact hl'⟩
    exact (mapM_iff.1 ha).imp (fun a b hab => (resolve_iff o hl a b).1 hab)
  · rintro res h' ⟨n, args, r, new, hn, ha, hr, he, rfl, hs⟩
    obtain ⟨rl', h1, hl'⟩ := (store_iff o res f.labels hl).2 new hs
    refine ⟨rl', ?_, hl'⟩
    unfold runFunction
    rw [hn, ok_bind _ (show item (some n) = .ok n from rfl), ok_bind _ (mapM_iff.2 (ha.imp (fun a b hab => (resolve_iff o hl a b).2 hab))), ok_bind _ hr]
    simp only
    rw [← he, ok_bind _ h1]
    rfl

lemma runFunctions_iff {V : Type} (o : OutOps V) (obj : V) : ∀ (l : List (FunD V)) (rl : D V) (h : List (String × V)), Latest rl h →
    (∀ rs rl', runFunctions o obj l rl = .ok (rs, rl') → ∃ h', FunsRun o obj h l rs h' ∧ Latest rl' h') ∧
    (∀ rs h', FunsRun o obj h l rs h' → ∃ rl', runFunctions o obj l rl = .ok (rs, rl') ∧ Latest rl' h')
  | [], rl, h, hl => by
    constructor
    · intro rs rl' e
      injection e with e
      obtain ⟨rfl, rfl⟩ := Prod.mk.inj e
      exact ⟨h, .nil h, hl⟩
    · intro rs h' e
      cases e
      exact ⟨rl, rfl, hl⟩
  | f :: l, rl, h, hl => by
    constructor
    · intro rs rl' e
      unfold runFunctions at e
      obtain ⟨⟨r, rl1⟩, h1, e⟩ := bind_ok e
      simp only at e
      obtain ⟨⟨rs1, rl2⟩, h2, e⟩ := bind_ok e
      obtain ⟨rfl, rfl⟩ := Prod.mk.inj (pure_ok e)
      obtain ⟨h', hf, hl1⟩ := (runFunction_iff o obj f hl).1 r rl1 h1
      obtain ⟨h'', hf2, hl2⟩ := (runFunctions_iff o obj l rl1 h' hl1).1 rs1 _ h2
      exact ⟨h'', .cons hf hf2, hl2⟩
    · intro rs h' e
      cases e with
      | cons e1 e2 =>
        obtain ⟨rl1, h1, hl1⟩ := (runFunction_iff o obj f hl).2 _ _ e1
        obtain ⟨rl2, h2, hl2⟩ := (runFunctions_iff o obj l rl1 _ hl1).2 _ _ e2
        refine ⟨rl2, ?_, hl2⟩
        unfold runFunctions
        rw [ok_bind _ h1]
        simp only
        rw [ok_bind _ h2]
        rfl

lemma runOut_iff {V : Type} (o : OutOps V) (fr : Bool) (d : OutD V) {rl : D V} {h : List (String × V)} (hl : Latest rl h) (l : List (OutD V)) :
    (∀ R rl'', runOuts o fr (d :: l) rl = .ok (R, rl'') → ∃ r rl' rs h', R = r :: rs ∧ OutRun o fr h d r h' ∧ Latest rl' h' ∧ runOuts o fr l rl' = .ok (rs, rl'')) ∧
    (∀ r h', OutRun o fr h d r h' → ∃ rl', Latest rl' h' ∧ ∀ rs rl'', runOuts o fr l rl' = .ok (rs, rl'') → runOuts o fr (d :: l) rl = .ok (r :: rs, rl'')) := by
  constructor
  · intro R rl'' e
    unfold runOuts at e
    obtain ⟨⟨ob, fs⟩, hob, e⟩ := bind_ok e
    simp only at e
    have hob' : d.functions = some fs ∧ ((∃ t, d.type = some t ∧ o.needsFarmResults t = true ∧ fr = false ∧ ob = none) ∨
        (∃ t v, d.type = some t ∧ ¬ (o.needsFarmResults t = true ∧ fr = false) ∧ o.new t d.pars = .ok v ∧ ob = some v) ∨
        (∃ l v, d.type = none ∧ d.object = some l ∧ getObject o h.reverse l = .ok v ∧ ob = some v)) := by
      unfold outObject at hob
      cases ht : d.type with
      | some t =>
        rw [ht] at hob
        simp only at hob
        obtain ⟨fs', hfs, hob⟩ := bind_ok hob
        by_cases hc : o.needsFarmResults t = true ∧ fr = false
        · rw [if_pos hc] at hob
          obtain ⟨rfl, rfl⟩ := Prod.mk.inj (pure_ok hob)
          exact ⟨item_ok hfs, .inl ⟨t, rfl, hc.1, hc.2, rfl⟩⟩
        · rw [if_neg hc] at hob
          obtain ⟨v, hv, hob⟩ := bind_ok hob
          obtain ⟨rfl, rfl⟩ := Prod.mk.inj (pure_ok hob)
          exact ⟨item_ok hfs, .inr (.inl ⟨t, v, rfl, hc, hv, rfl⟩)⟩
      | none =>
        rw [ht] at hob
        cases hb : d.object with
        | none => rw [hb] at hob; simp at hob
        | some lb =>
        rw [hb] at hob
        simp only at hob
        obtain ⟨v, hv, hob⟩ := bind_ok hob
        obtain ⟨fs', hfs, hob⟩ := bind_ok hob
        obtain ⟨rfl, rfl⟩ := Prod.mk.inj (pure_ok hob)
        exact ⟨item_ok hfs, .inr (.inr ⟨lb, v, rfl, rfl, by rw [← getObject_latest o hl]; exact hv, rfl⟩)⟩
    obtain ⟨hfs, hcase⟩ := hob'
    rcases hcase with ⟨t, ht, hn, hf, rfl⟩ | ⟨t, v, ht, hn, hv, rfl⟩ | ⟨lb, v, ht, hb, hv, rfl⟩
    · simp only at e
      obtain ⟨⟨rs, rl2⟩, h2, e⟩ := bind_ok e
      obtain ⟨rfl, rfl⟩ := Prod.mk.inj (pure_ok e)
      exact ⟨none, rl, rs, h, rfl, ⟨fs, hfs, .inl ⟨t, ht, hn, hf, rfl, rfl⟩⟩, hl, h2⟩
    · simp only at e
      obtain ⟨⟨fres, rl1⟩, h1, e⟩ := bind_ok e
      obtain ⟨⟨rs, rl2⟩, h2, e⟩ := bind_ok e
      obtain ⟨rfl, rfl⟩ := Prod.mk.inj (pure_ok e)
      obtain ⟨h', hr, hl'⟩ := (runFunctions_iff o v fs rl h hl).1 _ _ h1
      exact ⟨some fres, rl1, rs, h', rfl, ⟨fs, hfs, .inr (.inl ⟨t, v, fres, ht, hn, hv, hr, rfl⟩)⟩, hl', h2⟩
    · simp only at e
      obtain ⟨⟨fres, rl1⟩, h1, e⟩ := bind_ok e
      obtain ⟨⟨rs, rl2⟩, h2, e⟩ := bind_ok e
      obtain ⟨rfl, rfl⟩ := Prod.mk.inj (pure_ok e)
      obtain ⟨h', hr, hl'⟩ := (runFunctions_iff o v fs rl h hl).1 _ _ h1
      exact ⟨some fres, rl1, rs, h', rfl, ⟨fs, hfs, .inr (.inr ⟨lb, v, fres, ht, hb, hv, hr, rfl⟩)⟩, hl', h2⟩
  · rintro r h' ⟨fs, hfs, ⟨t, ht, hn, hf, rfl, rfl⟩ | ⟨t, v, rs0, ht, hn, hv, hr, rfl⟩ | ⟨lb, v, rs0, ht, hb, hv, hr, rfl⟩⟩
    · refine ⟨rl, hl, fun rs rl'' e => ?_⟩
      have hob : outObject o fr d rl = .ok (none, fs) := by
        unfold outObject; rw [ht, hfs]; simp only; rw [ok_bind _ (show item (some fs) = .ok fs from rfl), if_pos ⟨hn, hf⟩]; rfl
      unfold runOuts
      rw [ok_bind _ hob]
      simp only
      rw [ok_bind _ e]
      rfl
    · obtain ⟨rl1, h1, hl1⟩ := (runFunctions_iff o v fs rl h hl).2 _ _ hr
      refine ⟨rl1, hl1, fun rs rl'' e => ?_⟩
      have hob : outObject o fr d rl = .ok (some v, fs) := by
        unfold outObject; rw [ht, hfs]; simp only; rw [ok_bind _ (show item (some fs) = .ok fs from rfl), if_neg hn, ok_bind _ hv]; rfl
      unfold runOuts
      rw [ok_bind _ hob]
      simp only
      rw [ok_bind _ h1]
      simp only
      rw [ok_bind _ e]
      rfl
    · obtain ⟨rl1, h1, hl1⟩ := (runFunctions_iff o v fs rl h hl).2 _ _ hr
      refine ⟨rl1, hl1, fun rs rl'' e => ?_⟩
      have hob : outObject o fr d rl = .ok (some v, fs) := by
        unfold outObject; rw [ht, hfs, hb]; simp only
        rw [ok_bind _ (show getObject o rl lb = .ok v by rw [getObject_latest o hl]; exact hv), ok_bind _ (show item (some fs) = .ok fs from rfl)]; rfl
      unfold runOuts
      rw [ok_bind _ hob]
      simp only
      rw [ok_bind _ h1]
      simp only
      rw [ok_bind _ e]
      rfl

lemma runOuts_iff {V : Type} (o : OutOps V) (fr : Bool) : ∀ (l : List (OutD V)) (rl : D V) (h : List (String × V)), Latest rl h →
    (∀ rs rl', runOuts o fr l rl = .ok (rs, rl') → ∃ h', OutsRun o fr h l rs h' ∧ Latest rl' h') ∧
    (∀ rs h', OutsRun o fr h l rs h' → ∃ rl', runOuts o fr l rl = .ok (rs, rl') ∧ Latest rl' h')
  | [], rl, h, hl => by
    constructor
    · intro rs rl' e
      injection e with e
      obtain ⟨rfl, rfl⟩ := Prod.mk.inj e
      exact ⟨h, .nil h, hl⟩
    · intro rs h' e
      cases e
      exact ⟨rl, rfl, hl⟩
  | d :: l, rl, h, hl => by
    constructor
    · intro R rl'' e
      obtain ⟨r, rl', rs, h', rfl, hd, hl', e⟩ := (runOut_iff o fr d hl l).1 R rl'' e
      obtain ⟨h'', h2, hl2⟩ := (runOuts_iff o fr l rl' h' hl').1 rs rl'' e
      exact ⟨h'', .cons hd h2, hl2⟩
    · intro R h'' e
      cases e with
      | cons e1 e2 =>
        obtain ⟨rl', hl', hk⟩ := (runOut_iff o fr d hl l).2 _ _ e1
        obtain ⟨rl'', e, hl2⟩ := (runOuts_iff o fr l rl' _ hl').2 _ _ e2
        exact ⟨rl'', hk _ _ e, hl2⟩

/-- Outputs run exactly as described: one after the other, every `$` label refers to the result stored most recently under it, and the returned labels have the most recent results. -/
theorem C70_outputs {V : Type} (o : OutOps V) (fr ret : Bool) (outs : List (OutD V)) :
    (∀ rs rl, runOutputs o fr (some outs) ret = .ok (.both rs rl) → ∃ h, OutsRun o fr [] outs rs h ∧ ∀ k, rl.lookup k = lastOf k h) ∧
    (∀ rs h, OutsRun o fr [] outs rs h → ∃ rl, runOutputs o fr (some outs) ret = .ok (.both rs rl) ∧ ∀ k, rl.lookup k = lastOf k h) := by
  have hl : Latest (V := V) [] [] := fun k => rfl
  obtain ⟨h1, h2⟩ := runOuts_iff o fr outs [] [] hl
  constructor
  · intro rs rl e
    unfold runOutputs at e
    obtain ⟨⟨r, rl'⟩, hr, e⟩ := bind_ok e
    injection (pure_ok e) with e1 e2
    subst e1; subst e2
    exact h1 _ _ hr
  · intro rs h e
    obtain ⟨rl, hr, hl⟩ := h2 rs h e
    refine ⟨rl, ?_, hl⟩
    unfold runOutputs
    rw [show (some outs).getD [] = outs from rfl, ok_bind _ hr]
    rfl

lemma funsRun_length {V : Type} {o : OutOps V} {obj : V} {h h' : List (String × V)} {l : List (FunD V)} {rs : List V} (r : FunsRun o obj h l rs h') : rs.length = l.length := by
  induction r with
  | nil => rfl
  | cons _ _ ih => simp [ih]

/-- There is one entry per output, and it has one result per function; it is empty exactly for outputs whose class needs farm results if there are none. -/
theorem C70_results {V : Type} (o : OutOps V) (fr ret : Bool) (outs : List (OutD V)) (rs : List (Option (List V))) (rl : D V) (h : runOutputs o fr (some outs) ret = .ok (.both rs rl)) :
    List.Forall₂ (fun d r => match r with
      | none => ∃ t, d.type = some t ∧ o.needsFarmResults t = true ∧ fr = false
      | some l => d.functions.map List.length = some l.length ∧ ∀ t, d.type = some t → ¬ (o.needsFarmResults t = true ∧ fr = false)) outs rs := by
  obtain ⟨hh, hr, hx⟩ := (C70_outputs o fr ret outs).1 rs rl h
  clear h hx
  generalize ([] : List (String × V)) = h0 at hr
  induction hr with
  | nil => exact .nil
  | cons h1 _ ih =>
    refine .cons ?_ ih
    obtain ⟨fs, hfs, ⟨t, ht, hn, hf, rfl, rfl⟩ | ⟨t, v, rs0, ht, hn, hv, hr, rfl⟩ | ⟨lb, v, rs0, ht, hb, hv, hr, rfl⟩⟩ := h1
    · exact ⟨t, ht, hn, hf⟩
    · refine ⟨by rw [hfs, Option.map_some, funsRun_length hr], fun t' ht' => ?_⟩
      rw [ht] at ht'; injection ht' with ht'; subst ht'
      exact hn
    · refine ⟨by rw [hfs, Option.map_some, funsRun_length hr], fun t' ht' => ?_⟩
      rw [ht] at ht'; simp at ht'

/-- Without an entry for outputs there are no results. -/
theorem C70_no_outputs {V : Type} (o : OutOps V) (fr ret : Bool) : runOutputs o fr none ret = .ok (.both [] []) := rfl

/-- Finding: the results are always returned together with the labels, although the documentation says that the labels are only returned if asked for. -/
theorem C70_labels_always_returned {V : Type} (o : OutOps V) (fr : Bool) (outs : Option (List (OutD V))) (x : OutRet V) (h : runOutputs o fr outs false = .ok x) : ∃ r rl, x = .both r rl := by
  unfold runOutputs at h
  obtain ⟨⟨r, rl⟩, _, h⟩ := bind_ok h
  exact ⟨r, rl, pure_ok h⟩

/-- Finding: a function with an empty string as argument is refused. -/
theorem C70_empty_argument_refused {V : Type} (o : OutOps V) (obj : V) (f : FunD V) (rl : D V) (k : String) (h : (k, Arg.str "") ∈ f.args) : ∀ r, runFunction o obj f rl ≠ .ok r := by
  rintro ⟨res, rl'⟩ e
  have hl : Latest rl rl.reverse := by intro k; simp [lastOf]
  obtain ⟨h', ⟨n, args, r, new, hn, ha, _⟩, _⟩ := (runFunction_iff o obj f hl).1 res rl' e
  have : ∀ {l : List (String × Arg V)} {m : List (String × V)}, List.Forall₂ (fun a b => b.1 = a.1 ∧ ArgMeans o rl.reverse a.2 b.2) l m → (k, Arg.str "") ∈ l → False := by
    intro l m hf
    induction hf with
    | nil => simp
    | cons h1 _ ih =>
      intro hm
      rcases List.mem_cons.1 hm with h2 | h2
      · rw [← h2] at h1; exact h1.2.1 rfl
      · exact ih h2
  exact this ha h

/-! ### Runs -/

lemma lookup_del {V : Type} (k k' : String) : ∀ d : D V, (del k d).lookup k' = if k' = k then none else d.lookup k'
  | [] => by simp [del]
  | (x, v) :: d => by
    have ih := lookup_del k k' d
    unfold del at ih ⊢
    rw [List.filter_cons]
    by_cases hx : x = k
    · rw [if_neg (by simpa using hx), ih]
      by_cases hk : k' = k
      · rw [if_pos hk, if_pos hk]
      · rw [if_neg hk, if_neg hk, lookup_ne (by rw [hx]; exact hk)]
    · rw [if_pos (by simpa using hx)]
      by_cases hk : k' = x
      · subst hk
        rw [if_neg hx]; simp
      · rw [lookup_ne hk, lookup_ne hk, ih]

/-- What the parts of the input that describe the run become when the input is read: they are the same. -/
lemma readParts_frame {V : Type} {o : Ops V} {p : Params V} {i : IDict V} {r : Parts V} (h : readParts o p i = .ok r) :
    r.idict.calcFarm = i.calcFarm ∧ r.idict.calcPoints = i.calcPoints ∧ r.idict.outputs = i.outputs ∧ r.idict.algorithm = i.algorithm ∧
    (p.algo = none → p.farm = none → ∃ fd, r.idict.windFarm = some fd ∧ fd.layouts = none) := by
  unfold readParts at h
  obtain ⟨st, hst, h⟩ := bind_ok h
  obtain ⟨mb, hmb, h⟩ := bind_ok h
  obtain ⟨fa, hfa, h⟩ := bind_ok h
  obtain ⟨e, he, h⟩ := bind_ok h
  have h := pure_ok h
  subst h
  simp only
  have h1 : fa.2.calcFarm = i.calcFarm ∧ fa.2.calcPoints = i.calcPoints ∧ fa.2.outputs = i.outputs ∧ fa.2.algorithm = i.algorithm ∧
      (p.algo = none → p.farm = none → ∃ fd, fa.2.windFarm = some fd ∧ fd.layouts = none) := by
    unfold getFarm at hfa
    cases hf : p.farm with
    | some f =>
      rw [hf] at hfa
      obtain ⟨_, _, h⟩ := map_ok hfa
      rw [← h]; simp
    | none =>
      cases ha : p.algo with
      | some a =>
        rw [hf, ha] at hfa
        injection hfa with h
        rw [← h]; simp
      | none =>
        rw [hf, ha] at hfa
        obtain ⟨x, h1, h⟩ := map_ok hfa
        rw [← h]
        unfold readFarm at h1
        obtain ⟨fd, _, h1⟩ := bind_ok h1
        obtain ⟨_, _, h1⟩ := bind_ok h1
        obtain ⟨_, _, h1⟩ := bind_ok h1
        obtain ⟨_, _, h1⟩ := bind_ok h1
        rw [pure_ok h1]
        exact ⟨rfl, rfl, rfl, rfl, fun _ _ => ⟨_, rfl, rfl⟩⟩
  unfold getEngine at he
  split at he
  · obtain ⟨_, _, h⟩ := map_ok he; rw [← h]; exact h1
  · obtain ⟨_, _, h⟩ := map_ok he
    rw [← h]
    cases p.verbosity <;> exact h1
  · injection he with h; rw [← h]; exact h1

lemma getAlgo_frame {V : Type} {o : Ops V} {p : Params V} {f s m : Option V} {i : IDict V} {r : V × IDict V} (h : getAlgo o p f s m i = .ok r) :
    r.2.calcFarm = i.calcFarm ∧ r.2.calcPoints = i.calcPoints ∧ r.2.outputs = i.outputs ∧ r.2.windFarm = i.windFarm := by
  unfold getAlgo at h
  split at h
  · injection h with h; rw [← h]; simp
  · obtain ⟨_, _, h⟩ := bind_ok h
    obtain ⟨_, _, h⟩ := bind_ok h
    obtain ⟨_, _, h⟩ := bind_ok h
    rw [pure_ok h]; simp
  · simp at h

lemma readDict_frame {V : Type} {o : Ops V} {p : Params V} {i i' : IDict V} {a : V} {en : Option V} (h : readDict o p i = .ok (a, en, i')) :
    i'.calcFarm = i.calcFarm ∧ i'.calcPoints = i.calcPoints ∧ i'.outputs = i.outputs ∧ (p.algo = none → p.farm = none → ∃ fd, i'.windFarm = some fd ∧ fd.layouts = none) := by
  obtain ⟨r, hr, h⟩ := bind_ok h
  obtain ⟨x, hx, h⟩ := bind_ok h
  have h := Prod.mk.inj (Prod.mk.inj (pure_ok h)).2
  have h1 := readParts_frame hr
  have h2 := getAlgo_frame hx
  rw [h.2]
  exact ⟨h2.1.trans h1.1, h2.2.1.trans h1.2.1, h2.2.2.1.trans h1.2.2.1, fun ha hf => by rw [h2.2.2.2]; exact h1.2.2.2.2 ha hf⟩

lemma runDict_ok {V : Type} {o : Ops V} {oo : OutOps V} {p : Params V} {i : IDict V} {r : RunRes V} (h : (runDict o oo p i).1 = .ok r) :
    ∃ a en i', readDict o p i = .ok (a, en, i') ∧ runDict o oo p i = runRest o oo a en i' := by
  unfold runDict at h ⊢
  cases hr : readParts o p i with
  | error e => rw [hr] at h; simp at h
  | ok q =>
    rw [hr] at h
    simp only at h ⊢
    cases hg : getAlgo o p q.farm q.states q.mbook q.idict with
    | error e => rw [hg] at h; simp at h
    | ok x =>
      refine ⟨x.1, q.engine, x.2, ?_, rfl⟩
      unfold readDict
      rw [ok_bind _ hr, ok_bind _ hg]
      rfl

/-- The parameters of an entry without some keys. -/
def Without {V : Type} (ks : List String) (rd d : D V) : Prop := ∀ k, d.lookup k = if k ∈ ks then none else rd.lookup k

lemma runFarm_ok {V : Type} {o : Ops V} {a : V} {i : IDict V} {fr : Option V} (h : (runFarm o a i).1 = .ok fr) :
    if ((i.calcFarm.getD []).lookup "run").all o.truth then ∃ v d, fr = some v ∧ o.calcFarm a d = .ok v ∧ Without ["run"] (i.calcFarm.getD []) d else fr = none := by
  unfold runFarm at h
  simp only at h
  cases hr : (i.calcFarm.getD []).lookup "run" with
  | none =>
    rw [hr] at h
    simp only [Option.map_none, Option.getD_none, if_true] at h
    obtain ⟨v, hv, h⟩ := map_ok h
    simp only [Option.all_none, if_true]
    exact ⟨v, _, h.symm, hv, fun k => by rw [lookup_del]; simp⟩
  | some b =>
    rw [hr] at h
    simp only [Option.map_some, Option.getD_some] at h
    simp only [Option.all_some]
    by_cases hb : o.truth b = true
    · rw [if_pos hb] at h ⊢
      obtain ⟨v, hv, h⟩ := map_ok h
      exact ⟨v, _, h.symm, hv, fun k => by rw [lookup_del]; simp⟩
    · rw [if_neg hb] at h ⊢
      injection h with h
      exact h.symm

lemma runPoints_ok {V : Type} {o : Ops V} {a : V} {fr : Option V} {i : IDict V} {pr : Option (Option V)} (h : (runPoints o a fr i).1 = .ok pr) :
    match i.calcPoints with
    | none => pr = none
    | some rd => ∃ b, rd.lookup "run" = some b ∧ if o.truth b then ∃ pts v d, rd.lookup "points" = some pts ∧ pr = some (some v) ∧ o.calcPoints a fr pts d = .ok v ∧
        Without ["run", "points"] rd d else pr = some none := by
  unfold runPoints at h
  cases hc : i.calcPoints with
  | none => rw [hc] at h; injection h with h; exact h.symm
  | some rd =>
    rw [hc] at h
    simp only at h ⊢
    cases hb : rd.lookup "run" with
    | none => rw [hb] at h; simp at h
    | some b =>
      rw [hb] at h
      simp only at h
      refine ⟨b, rfl, ?_⟩
      by_cases ht : o.truth b = true
      · rw [if_pos ht] at h ⊢
        rw [lookup_del, if_neg (by decide)] at h
        cases hp : rd.lookup "points" with
        | none => rw [hp] at h; simp at h
        | some pts =>
          rw [hp] at h
          obtain ⟨v, hv, h⟩ := map_ok h
          refine ⟨pts, v, _, rfl, h.symm, hv, fun k => ?_⟩
          rw [lookup_del, lookup_del]
          by_cases h1 : k = "points"
          · simp [h1]
          · simp [h1]
      · rw [if_neg ht] at h ⊢
        injection h with h
        exact h.symm

/-- A run: farm results unless switched off, with the parameters of the entry; point results as the entry asks for; then the outputs. -/
theorem C70_run {V : Type} (o : Ops V) (oo : OutOps V) (p : Params V) (i : IDict V) (r : RunRes V) (h : (runDict o oo p i).1 = .ok r) :
    ∃ a en i', readDict o p i = .ok (a, en, i') ∧
      (if ((i.calcFarm.getD []).lookup "run").all o.truth then ∃ v d, r.farm = some v ∧ o.calcFarm a d = .ok v ∧ Without ["run"] (i.calcFarm.getD []) d else r.farm = none) ∧
      (match i.calcPoints with
        | none => r.points = none
        | some rd => ∃ b, rd.lookup "run" = some b ∧ if o.truth b then ∃ pts v d, rd.lookup "points" = some pts ∧ r.points = some (some v) ∧ o.calcPoints a r.farm pts d = .ok v ∧
            Without ["run", "points"] rd d else r.points = some none) ∧
      runOutputs oo r.farm.isSome i.outputs false = .ok r.out := by
  obtain ⟨a, en, i', h1, h2⟩ := runDict_ok h
  refine ⟨a, en, i', h1, ?_⟩
  rw [h2] at h
  obtain ⟨e1, e2, e3, _⟩ := readDict_frame h1
  unfold runRest at h
  simp only at h
  have hi : (runFarm o a i').2.calcPoints = i'.calcPoints ∧ (runFarm o a i').2.outputs = i'.outputs := by
    unfold runFarm; simp only; split <;> exact ⟨rfl, rfl⟩
  rcases hf : runFarm o a i' with ⟨fr | fr, i1⟩
  · rw [hf] at h; simp at h
  rw [hf] at h hi
  simp only at h hi
  have hi2 : ∀ f, (runPoints o a f i1).2.outputs = i1.outputs := by
    intro f; unfold runPoints; split
    · rfl
    · split
      · rfl
      · simp only; split
        · split <;> rfl
        · rfl
  have hi2 := hi2 fr
  rcases hp : runPoints o a fr i1 with ⟨pr | pr, i2⟩
  · rw [hp] at h; simp at h
  rw [hp] at h hi2
  simp only at h hi2
  cases ho : runOutputs oo fr.isSome i2.outputs false with
  | error e => rw [ho] at h; simp at h
  | ok x =>
    rw [ho] at h
    injection h with h
    subst h
    have hf' := runFarm_ok (show (runFarm o a i').1 = .ok fr by rw [hf])
    have hp' := runPoints_ok (show (runPoints o a fr i1).1 = .ok pr by rw [hp])
    rw [e1] at hf'
    rw [hi.1, e2] at hp'
    refine ⟨hf', hp', ?_⟩
    rw [← e3, ← hi.2, ← hi2]
    exact ho

lemma runRest_events {V : Type} (o : Ops V) (oo : OutOps V) (a : V) (en : Option V) (i : IDict V) :
    match (runRest o oo a en i).1 with
    | .ok r => (runRest o oo a en i).2.1 = (if en.isSome then [Event.init] else []) ++ (if r.farm.isSome then [Event.farm] else []) ++
        (if (r.points.getD none).isSome then [Event.points] else []) ++ [Event.outputs] ++ (if en.isSome then [Event.finalize] else [])
    | .error _ => Event.finalize ∉ (runRest o oo a en i).2.1 := by
  unfold runRest
  simp only
  rcases runFarm o a i with ⟨fr | fr, i1⟩
  · simp only; split <;> simp
  simp only
  rcases runPoints o a fr i1 with ⟨pr | pr, i2⟩
  · simp only; split <;> split <;> simp
  simp only
  cases runOutputs oo fr.isSome i2.outputs false with
  | error e => simp only; split <;> split <;> split <;> simp
  | ok x => simp only; split <;> split <;> split <;> simp

/-- The order of events of a successful run: the engine is started before the calculations and shut down after the outputs. -/
theorem C70_events {V : Type} (o : Ops V) (oo : OutOps V) (p : Params V) (i : IDict V) (r : RunRes V) (h : (runDict o oo p i).1 = .ok r) :
    (runDict o oo p i).2.1 = (if (p.enginePars.or i.engine).isSome then [Event.init] else []) ++ (if r.farm.isSome then [Event.farm] else []) ++
      (if (r.points.getD none).isSome then [Event.points] else []) ++ [Event.outputs] ++ (if (p.enginePars.or i.engine).isSome then [Event.finalize] else []) := by
  obtain ⟨a, en, i', h1, h2⟩ := runDict_ok h
  rw [h2] at h ⊢
  have he := C70_engine o p i i' a en h1
  have hen : (p.enginePars.or i.engine).isSome = en.isSome := by
    cases hx : p.enginePars.or i.engine with
    | none => rw [hx] at he; simp only at he; rw [he]; rfl
    | some d => rw [hx] at he; obtain ⟨e, he, _⟩ := he; rw [he]; rfl
  rw [hen]
  have := runRest_events o oo a en i'
  rw [h] at this
  exact this

/-- Finding: after an error the engine is not shut down. -/
theorem C70_error_engine_left {V : Type} (o : Ops V) (oo : OutOps V) (p : Params V) (i : IDict V) (e : Err) (h : (runDict o oo p i).1 = .error e) :
    Event.finalize ∉ (runDict o oo p i).2.1 := by
  unfold runDict at h ⊢
  cases hr : readParts o p i with
  | error e => simp
  | ok q =>
    rw [hr] at h
    simp only at h ⊢
    cases hg : getAlgo o p q.farm q.states q.mbook q.idict with
    | error e => simp only; split <;> simp
    | ok x =>
      rw [hg] at h
      simp only at h ⊢
      have := runRest_events o oo x.1 q.engine x.2
      rw [h] at this
      exact this

/-! ### The input after a run -/

lemma runDict_input {V : Type} {o : Ops V} {oo : OutOps V} {p : Params V} {i : IDict V} {r : RunRes V} (h : (runDict o oo p i).1 = .ok r) :
    ∃ a en i', readDict o p i = .ok (a, en, i') ∧ (runDict o oo p i).2.2 = { i' with calcFarm := i.calcFarm.map (del "run"), calcPoints := i.calcPoints.map (fun rd =>
      if ((rd.lookup "run").map o.truth).getD false then del "points" (del "run" rd) else del "run" rd) } := by
  obtain ⟨a, en, i', h1, h2⟩ := runDict_ok h
  refine ⟨a, en, i', h1, ?_⟩
  rw [h2] at h ⊢
  obtain ⟨e1, e2, e3, _⟩ := readDict_frame h1
  have hi : (runFarm o a i').2 = { i' with calcFarm := i.calcFarm.map (del "run") } := by
    unfold runFarm; simp only; rw [e1]; split <;> rfl
  unfold runRest at h ⊢
  simp only at h ⊢
  rcases hf : runFarm o a i' with ⟨fr | fr, i1⟩
  · rw [hf] at h; simp at h
  rw [hf] at h hi
  simp only at h hi ⊢
  subst hi
  rcases hp : runPoints o a fr { i' with calcFarm := i.calcFarm.map (del "run") } with ⟨pr | pr, i2⟩
  · rw [hp] at h; simp at h
  rw [hp] at h
  simp only at h ⊢
  have hi2 : i2 = { i' with calcFarm := i.calcFarm.map (del "run"), calcPoints := i.calcPoints.map (fun rd =>
      if ((rd.lookup "run").map o.truth).getD false then del "points" (del "run" rd) else del "run" rd) } := by
    unfold runPoints at hp
    simp only [e2] at hp
    cases hc : i.calcPoints with
    | none =>
      rw [hc] at hp
      simp only at hp
      rw [← (Prod.mk.inj hp).2]
      simp
    | some rd =>
      rw [hc] at hp
      simp only at hp
      cases hb : rd.lookup "run" with
      | none => rw [hb] at hp; simp at hp
      | some b =>
        rw [hb] at hp
        simp only at hp
        simp only [Option.map_some, hb, Option.getD_some]
        by_cases ht : o.truth b = true
        · rw [if_pos ht] at hp ⊢
          split at hp
          · simp at hp
          · rw [← (Prod.mk.inj hp).2]
        · rw [if_neg ht] at hp ⊢
          rw [← (Prod.mk.inj hp).2]
  cases ho : runOutputs oo fr.isSome i2.outputs false with
  | error e => rw [ho] at h; simp at h
  | ok x => exact hi2

/-- Finding: a dictionary with a wind farm can be used for one run only. The layouts are gone afterwards, and every later run that needs them fails. -/
theorem C70_second_run_refused {V : Type} (o : Ops V) (oo : OutOps V) (p p' : Params V) (i : IDict V) (r : RunRes V) (h : (runDict o oo p i).1 = .ok r) (ha : p.algo = none)
    (hf : p.farm = none) (ha' : p'.algo = none) (hf' : p'.farm = none) : ∀ r', (runDict o oo p' (runDict o oo p i).2.2).1 ≠ .ok r' := by
  intro r' h'
  obtain ⟨a, en, i', h1, h2⟩ := runDict_input h
  obtain ⟨fd, hw, hl⟩ := (readDict_frame h1).2.2.2 ha hf
  obtain ⟨a', en', i'', h3, _⟩ := runDict_ok h'
  obtain ⟨_, _, _, _, _, hd, _⟩ := C70_algorithm o p' _ _ _ _ ha' h3
  have := hd.farm
  rw [hf'] at this
  obtain ⟨fd', ls, _, h4, h5, _⟩ := this
  rw [h2] at h4
  simp only at h4
  rw [hw] at h4
  injection h4 with h4
  rw [← h4, hl] at h5
  simp at h5

/-- Finding: a dictionary with a point calculation can be used for one run only. -/
theorem C70_second_points_refused {V : Type} (o : Ops V) (oo : OutOps V) (p p' : Params V) (i : IDict V) (r : RunRes V) (h : (runDict o oo p i).1 = .ok r) (hc : i.calcPoints.isSome) :
    ∀ r', (runDict o oo p' (runDict o oo p i).2.2).1 ≠ .ok r' := by
  intro r' h'
  obtain ⟨a, en, i', h1, h2⟩ := runDict_input h
  obtain ⟨_, _, _, _, _, h3, _⟩ := C70_run o oo p' _ _ h'
  rw [h2] at h3
  obtain ⟨rd, hrd⟩ := Option.isSome_iff_exists.1 hc
  simp only [hrd, Option.map_some] at h3
  obtain ⟨b, hb, _⟩ := h3
  split at hb
  · rw [lookup_del, lookup_del] at hb; simp at hb
  · rw [lookup_del] at hb; simp at hb

/-- Finding: a farm calculation that is switched off runs in the next run with the same dictionary. -/
theorem C70_second_run_farm {V : Type} (o : Ops V) (oo : OutOps V) (p p' : Params V) (i : IDict V) (r r' : RunRes V) (h : (runDict o oo p i).1 = .ok r)
    (h' : (runDict o oo p' (runDict o oo p i).2.2).1 = .ok r') : r'.farm.isSome := by
  obtain ⟨a, en, i', h1, h2⟩ := runDict_input h
  obtain ⟨_, _, _, _, h3, _⟩ := C70_run o oo p' _ _ h'
  rw [h2] at h3
  have : ((i.calcFarm.map (del "run")).getD []).lookup "run" = none := by
    cases i.calcFarm with
    | none => rfl
    | some d => simp [lookup_del]
  simp only [this, Option.all_none, if_true] at h3
  obtain ⟨v, _, hv, _⟩ := h3
  simp [hv]

/-- Finding: arguments of a run stay in the dictionary: a later run takes them as settings of the file, for example `iterative`. -/
theorem C70_settings_stay {V : Type} (o : Ops V) (oo : OutOps V) (p : Params V) (i : IDict V) (r : RunRes V) (h : (runDict o oo p i).1 = .ok r) (ha : p.algo = none) :
    ∃ states mbook farm file ad, Described o p i states mbook farm ∧ i.algorithm = some file ∧ (runDict o oo p i).2.2.algorithm = some ad ∧
      ∀ k, ad.lookup k = algoValue o p states mbook farm file k := by
  obtain ⟨a, en, i', h1, h2⟩ := runDict_input h
  obtain ⟨s, m, f, file, ad, hd, hfile, _, hi, hk⟩ := C70_algorithm o p i i' a en ha h1
  exact ⟨s, m, f, file, ad, hd, hfile, by rw [h2]; exact hi, hk⟩

lemma ext_lookup {V : Type} : ∀ {a b : D V}, a.map Prod.fst = b.map Prod.fst → (a.map Prod.fst).Nodup → (∀ k, a.lookup k = b.lookup k) → a = b
  | [], [], _, _, _ => rfl
  | [], _ :: _, h, _, _ => by simp at h
  | _ :: _, [], h, _, _ => by simp at h
  | (x, v) :: a, (y, w) :: b, h, hn, hl => by
    simp only [List.map_cons, List.cons.injEq] at h
    obtain ⟨rfl, h⟩ := h
    rw [List.map_cons, List.nodup_cons] at hn
    have h0 := hl x
    simp only [List.lookup_cons, beq_self_eq_true] at h0
    injection h0 with h0
    subst h0
    congr 1
    refine ext_lookup h hn.2 (fun k => ?_)
    by_cases hk : k = x
    · subst hk
      have na : a.lookup k = none := by
        rw [List.lookup_eq_none_iff]
        intro p hp
        rw [bne_iff_ne]
        rintro rfl
        exact hn.1 (List.mem_map.2 ⟨p, hp, rfl⟩)
      have nb : b.lookup k = none := by
        rw [List.lookup_eq_none_iff]
        intro p hp
        rw [bne_iff_ne]
        rintro rfl
        exact hn.1 (by rw [h]; exact List.mem_map.2 ⟨p, hp, rfl⟩)
      rw [na, nb]
    · have := hl k
      rwa [lookup_ne hk, lookup_ne hk] at this

lemma put_keys_mem {V : Type} (k : String) (v : V) : ∀ {l : D V}, k ∈ l.map Prod.fst → (put k v l).map Prod.fst = l.map Prod.fst
  | [], h => by simp at h
  | (x, w) :: l, h => by
    rw [put]
    split_ifs with hx
    · simp [hx]
    · simp only [List.map_cons]
      rw [put_keys_mem k v (by
        rw [List.map_cons, List.mem_cons] at h
        exact h.resolve_left (fun e => hx e.symm))]

lemma update_keys_mem {V : Type} : ∀ (e d : D V), (∀ k ∈ e.map Prod.fst, k ∈ d.map Prod.fst) → (update d e).map Prod.fst = d.map Prod.fst
  | [], d, _ => rfl
  | (k, v) :: e, d, h => by
    have hk := h k (by simp)
    rw [update, List.foldl_cons]
    have := update_keys_mem e (put k v d) (fun x hx => by rw [put_keys_mem k v hk]; exact h x (by simp only [List.map_cons, List.mem_cons]; exact .inr hx))
    rw [update] at this
    rw [this, put_keys_mem k v hk]

lemma update_mem {V : Type} : ∀ (e d : D V) (x : String), x ∈ (update d e).map Prod.fst ↔ x ∈ e.map Prod.fst ∨ x ∈ d.map Prod.fst
  | [], d, x => by simp [update]
  | (k, v) :: e, d, x => by
    rw [update, List.foldl_cons]
    have := update_mem e (put k v d) x
    rw [update] at this
    rw [this, keys_put, List.map_cons, List.mem_cons]
    tauto

lemma update_nodup {V : Type} : ∀ (e d : D V), (d.map Prod.fst).Nodup → ((update d e).map Prod.fst).Nodup
  | [], d, h => h
  | (k, v) :: e, d, h => by
    rw [update, List.foldl_cons]
    have := update_nodup e (put k v d) (nodup_put k v d h)
    rwa [update] at this

lemma algoDict_nodup {V : Type} (o : Ops V) (p : Params V) (f s m : V) (a : D V) (hn : (a.map Prod.fst).Nodup) : ((algoDict o p f s m a).map Prod.fst).Nodup := by
  unfold algoDict
  simp only
  apply update_nodup
  have h1 : ((update (if p.iterative = some true then put "algo_type" (o.str "Iterative") a else a) [("farm", f), ("states", s), ("mbook", m)]).map Prod.fst).Nodup := by
    apply update_nodup
    split
    · exact nodup_put _ _ _ hn
    · exact hn
  cases p.verbosity with
  | none => exact h1
  | some v => exact nodup_put _ _ _ h1

lemma algoDict_idem {V : Type} (o : Ops V) (p : Params V) (f s m : V) (a : D V) (hn : (a.map Prod.fst).Nodup) :
    algoDict o p f s m (algoDict o p f s m a) = algoDict o p f s m a := by
  have hmem : ∀ b : D V, ∀ x, x ∈ (algoDict o p f s m b).map Prod.fst ↔ x ∈ (p.algoPars.filter (fun q => !o.isNone q.2)).map Prod.fst ∨ (x = "verbosity" ∧ p.verbosity.isSome) ∨
      x ∈ ["farm", "states", "mbook"] ∨ (x = "algo_type" ∧ p.iterative = some true) ∨ x ∈ b.map Prod.fst := by
    intro b x
    unfold algoDict
    simp only
    rw [update_mem]
    have h1 : x ∈ (update (if p.iterative = some true then put "algo_type" (o.str "Iterative") b else b) [("farm", f), ("states", s), ("mbook", m)]).map Prod.fst ↔
        x ∈ ["farm", "states", "mbook"] ∨ (x = "algo_type" ∧ p.iterative = some true) ∨ x ∈ b.map Prod.fst := by
      rw [update_mem]
      refine or_congr (by simp) ?_
      by_cases hi : p.iterative = some true
      · rw [if_pos hi, keys_put]; simp [hi]
      · rw [if_neg hi]; simp [hi]
    refine or_congr Iff.rfl ?_
    cases p.verbosity with
    | none => simpa using h1
    | some v =>
      simp only
      rw [keys_put, h1]
      simp
  have hin := fun x => hmem a x
  refine ext_lookup ?_ ?_ ?_
  · generalize hb : algoDict o p f s m a = b at *
    unfold algoDict
    simp only
    have k1 : (if p.iterative = some true then put "algo_type" (o.str "Iterative") b else b).map Prod.fst = b.map Prod.fst := by
      split
      · next hi => exact put_keys_mem _ _ ((hin _).2 (.inr (.inr (.inr (.inl ⟨rfl, hi⟩)))))
      · rfl
    have k2 : (update (if p.iterative = some true then put "algo_type" (o.str "Iterative") b else b) [("farm", f), ("states", s), ("mbook", m)]).map Prod.fst = b.map Prod.fst := by
      rw [update_keys_mem, k1]
      intro k hk
      rw [k1]
      exact (hin _).2 (.inr (.inr (.inl (by simpa using hk))))
    rw [update_keys_mem]
    · cases hv : p.verbosity with
      | none => exact k2
      | some v =>
        simp only
        rw [put_keys_mem, k2]
        rw [k2]
        exact (hin _).2 (.inr (.inl ⟨rfl, by simp [hv]⟩))
    · intro k hk
      have : k ∈ b.map Prod.fst := (hin _).2 (.inl hk)
      cases hv : p.verbosity with
      | none => simp only; rw [k2]; exact this
      | some v => simp only; rw [keys_put, k2]; exact .inr this
  · exact algoDict_nodup o p f s m _ (algoDict_nodup o p f s m a hn)
  · intro k
    rw [algoDict_lookup]
    conv_lhs => rw [algoValue, algoDict_lookup]
    rw [algoDict_lookup]
    unfold algoValue
    cases lastOf k (p.algoPars.filter (fun q => !o.isNone q.2)) with
    | some x => simp
    | none =>
      simp only [Option.none_or]
      cases (if k = "verbosity" then p.verbosity.map (fun v => o.int (v - 1)) else none : Option V) with
      | some x => simp
      | none =>
        simp only [Option.none_or]
        cases (if k = "farm" then some f else if k = "states" then some s else if k = "mbook" then some m else none : Option V) with
        | some x => simp
        | none =>
          simp only [Option.none_or]
          split <;> rfl

lemma del_id {V : Type} (k : String) (d : D V) (h : d.lookup k = none) : del k d = d := by
  unfold del
  rw [List.filter_eq_self]
  intro p hp
  rw [List.lookup_eq_none_iff] at h
  have := h p hp
  rw [bne_iff_ne] at this
  simpa using fun e => this e.symm

/-- The part of the claim that holds: with given farm, states and model book, without point calculation and switch for the farm calculation, a run can be repeated: results, events and
input are the same. The full claim (every run can be repeated) is false, see `C70_second_run_refused`, `C70_second_points_refused`, `C70_second_run_farm`. -/
theorem C70_repeatable_partial {V : Type} (o : Ops V) (oo : OutOps V) (p : Params V) (i : IDict V) (r : RunRes V) (h : (runDict o oo p i).1 = .ok r) (ha : p.algo = none)
    (hf : p.farm.isSome) (hs : p.states.isSome) (hm : p.mbook.isSome) (hc : i.calcPoints = none) (hrun : (i.calcFarm.getD []).lookup "run" = none)
    (hnd : ∀ file, i.algorithm = some file → (file.map Prod.fst).Nodup) : runDict o oo p (runDict o oo p i).2.2 = runDict o oo p i := by
  obtain ⟨f, hf⟩ := Option.isSome_iff_exists.1 hf
  obtain ⟨s, hs⟩ := Option.isSome_iff_exists.1 hs
  obtain ⟨m, hm⟩ := Option.isSome_iff_exists.1 hm
  obtain ⟨a, en, i', h1, h2⟩ := runDict_input h
  obtain ⟨a1, en1, i1, h1', hrest⟩ := runDict_ok h
  rw [h1] at h1'
  injection h1' with h1'
  obtain ⟨ea, h1'⟩ := Prod.mk.inj h1'
  obtain ⟨eb, ec⟩ := Prod.mk.inj h1'
  rw [← ea, ← eb, ← ec] at hrest
  have hi2 : (runDict o oo p i).2.2 = i' := by
    obtain ⟨e1, e2, e3, _⟩ := readDict_frame h1
    rw [h2, hc]
    have : i.calcFarm.map (del "run") = i.calcFarm := by
      cases hcf : i.calcFarm with
      | none => rfl
      | some d => rw [hcf] at hrun; simp only [Option.getD_some] at hrun; rw [Option.map_some, del_id _ _ hrun]
    rw [this, ← e1, Option.map_none]
    have : i'.calcPoints = none := by rw [e2, hc]
    rw [← this]
  rw [hi2, hrest]
  -- the parts for any input
  have hparts : ∀ j : IDict V, readParts o p j = (getEngine o p j).map (fun e => ⟨some s, some m, some f, e.1, e.2⟩) := by
    intro j
    have g1 : getStates o p j = .ok (some s) := by unfold getStates; rw [hs, ha]; rfl
    have g2 : getBook o p j = .ok (some m) := by unfold getBook; rw [hm, ha]; rfl
    have g3 : getFarm o p j = .ok (some f, j) := by unfold getFarm; rw [hf, ha]; rfl
    unfold readParts
    rw [ok_bind _ g1, ok_bind _ g2, ok_bind _ g3]
    cases getEngine o p j <;> rfl
  obtain ⟨q, hq, h1⟩ := bind_ok h1
  obtain ⟨x, hx, h1⟩ := bind_ok h1
  have h1 := Prod.mk.inj (pure_ok h1)
  have h1b := Prod.mk.inj h1.2
  have hq' := hq
  rw [hparts] at hq'
  obtain ⟨e, he, hqe⟩ := map_ok hq'
  subst hqe
  simp only at hx h1b
  have hx' := hx
  obtain ⟨f', s', m', file, ef, es, em, hfile, hnew, hx2⟩ := getAlgo_ok ha hx
  injection ef with ef
  injection es with es
  injection em with em
  subst ef; subst es; subst em
  have hfile0 : i.algorithm = some file := by rw [← parts_algorithm hq]; exact hfile
  have hi' : i' = { e.2 with algorithm := some (algoDict o p f s m file) } := by rw [h1b.2, hx2]
  have heng : getEngine o p i' = .ok (en, i') := by
    rw [h1b.1]
    unfold getEngine at he ⊢
    cases hep : p.enginePars with
    | some d =>
      rw [hep] at he
      simp only at he ⊢
      obtain ⟨w, hw, h3⟩ := map_ok he
      rw [hw, ← h3]; rfl
    | none =>
      rw [hep] at he
      cases hie : i.engine with
      | none =>
        rw [hie] at he
        injection he with h3
        have : i'.engine = none := by rw [hi', ← h3]; exact hie
        rw [this, ← h3]
      | some d =>
        rw [hie] at he
        simp only at he
        obtain ⟨w, hw, h3⟩ := map_ok he
        cases hv : p.verbosity with
        | none =>
          rw [hv] at h3
          have : i'.engine = some d := by rw [hi', ← h3]; exact hie
          rw [this]
          simp only
          rw [hw, ← h3]; rfl
        | some v =>
          rw [hv] at h3
          have : i'.engine = some d := by
            rw [hi', ← h3, ← hie]
          rw [this]
          have h4 : i'.verbosity = some (o.int (v - 1)) := by rw [hi', ← h3]
          have h5 : i' = { i' with verbosity := some (o.int (v - 1)) } := by rw [← h4]
          simp only
          rw [hw]
          simp only [Except.map]
          rw [← this, ← h5, ← h3]
  have halgo : getAlgo o p (some f) (some s) (some m) i' = .ok (a, i') := by
    unfold getAlgo at hx' ⊢
    rw [ha] at hx' ⊢
    simp only at hx' ⊢
    obtain ⟨file2, hf2, hx'⟩ := bind_ok hx'
    obtain ⟨ty, hty, hx'⟩ := bind_ok hx'
    have hii : i'.algorithm = some (algoDict o p f s m file) := by rw [hi']
    rw [hii, ok_bind _ (show item (some (algoDict o p f s m file)) = .ok _ from rfl)]
    have hty2 : ∃ t, item ((if p.iterative = some true then put "algo_type" (o.str "Iterative") (algoDict o p f s m file) else algoDict o p f s m file).lookup "algo_type") = .ok t := by
      by_cases hit : p.iterative = some true
      · rw [if_pos hit, lookup_put]; exact ⟨_, rfl⟩
      · rw [if_neg hit] at hty ⊢
        rw [algoDict_lookup]
        rw [item_ok hf2] at hfile
        injection hfile with hfile
        subst hfile
        have h5 := item_ok hty
        unfold algoValue
        rw [h5]
        simp only [hit]
        cases lastOf "algo_type" (p.algoPars.filter (fun q => !o.isNone q.2)) with
        | some x => exact ⟨x, rfl⟩
        | none => exact ⟨ty, by simp [item]⟩
    obtain ⟨t, ht⟩ := hty2
    rw [ok_bind _ ht]
    rw [algoDict_idem o p f s m file (hnd file hfile0), ok_bind _ hnew, ← h1.1]
    rw [← hii]
    rfl
  have hread : readParts o p i' = .ok ⟨some s, some m, some f, en, i'⟩ := by
    rw [hparts, heng]; rfl
  have hd : runDict o oo p i' = runRest o oo a en i' := by
    unfold runDict
    rw [hread]
    simp only
    rw [halgo]
  rw [hd]

/-! ### Acceptance -/

/-- All constructors of the library succeed. -/
structure Total {V : Type} (o : Ops V) : Prop where
  states : ∀ d, ∃ v, o.newStates d = .ok v
  model : ∀ b s n d, ∃ v, o.addModel b s n d = .ok v
  farm : ∀ d, ∃ v, o.newFarm d = .ok v
  layout : ∀ f n d, ∃ v, o.addLayout f n d = .ok v
  engine : ∀ d, ∃ v, o.newEngine d = .ok v
  algo : ∀ d, ∃ v, o.newAlgo d = .ok v

lemma foldlM_total {S X : Type} {f : S → X → Except Err S} {l : List X} (h : ∀ x ∈ l, ∀ s, ∃ s', f s x = .ok s') : ∀ s, ∃ s', l.foldlM f s = .ok s' := by
  induction l with
  | nil => exact fun s => ⟨s, rfl⟩
  | cons x l ih =>
    intro s
    obtain ⟨s', hs⟩ := h x (by simp) s
    obtain ⟨s'', hs'⟩ := ih (fun y hy => h y (by simp [hy])) s'
    exact ⟨s'', by rw [List.foldlM_cons, ok_bind _ hs]; exact hs'⟩

/-- A dictionary is accepted if the constructors accept their parameters, every part is given as an object or described, models and layouts have their names, and the type of the algorithm
is given or forced. -/
theorem C70_accepted {V : Type} (o : Ops V) (ht : Total o) (p : Params V) (i : IDict V) (ha : p.algo = none) (hs : p.states.isSome ∨ i.states.isSome)
    (hm : p.mbook.isSome ∨ ∀ s ∈ i.modelBook.getD [], ∀ m ∈ s.2, m.1.isSome)
    (hf : p.farm.isSome ∨ ∃ fd ls, i.windFarm = some fd ∧ fd.layouts = some ls ∧ ∀ l ∈ ls, l.1.isSome)
    (hal : ∃ file, i.algorithm = some file ∧ (p.iterative = some true ∨ (file.lookup "algo_type").isSome)) : ∃ r, readDict o p i = .ok r := by
  have g1 : ∃ s, getStates o p i = .ok (some s) := by
    unfold getStates
    rw [ha]
    cases h : p.states with
    | some s => exact ⟨s, rfl⟩
    | none =>
      rw [h] at hs
      obtain ⟨d, hd⟩ := Option.isSome_iff_exists.1 (hs.resolve_left (by simp))
      obtain ⟨v, hv⟩ := ht.states d
      exact ⟨v, by simp only; rw [hd, ok_bind _ (show item (some d) = .ok d from rfl), ok_bind _ hv]; rfl⟩
  have g2 : ∃ s, getBook o p i = .ok (some s) := by
    unfold getBook
    rw [ha]
    cases h : p.mbook with
    | some s => exact ⟨s, rfl⟩
    | none =>
      rw [h] at hm
      have hm := hm.resolve_left (by simp)
      have : ∃ b, readBook o i = .ok b := by
        refine foldlM_total (fun s hs b => foldlM_total (fun m hmm b => ?_) b) o.newBook
        obtain ⟨n, hn⟩ := Option.isSome_iff_exists.1 (hm s hs m hmm)
        obtain ⟨v, hv⟩ := ht.model b s.1 n m.2
        exact ⟨v, by unfold addOne; rw [hn, ok_bind _ (show item (some n) = .ok n from rfl)]; exact hv⟩
      obtain ⟨b, hb⟩ := this
      exact ⟨b, by simp only; rw [hb]; rfl⟩
  have g3 : ∃ f i', getFarm o p i = .ok (some f, i') := by
    unfold getFarm
    rw [ha]
    cases h : p.farm with
    | some s => exact ⟨s, i, rfl⟩
    | none =>
      rw [h] at hf
      obtain ⟨fd, ls, h1, h2, h3⟩ := hf.resolve_left (by simp)
      obtain ⟨f0, hf0⟩ := ht.farm fd.pars
      obtain ⟨f, hff⟩ := foldlM_total (f := addLay o p.verbosity) (l := ls) (fun l hl b => by
        obtain ⟨n, hn⟩ := Option.isSome_iff_exists.1 (h3 l hl)
        unfold addLay
        rw [hn, ok_bind _ (show item (some n) = .ok n from rfl)]
        cases p.verbosity with
        | none => exact ht.layout _ _ _
        | some v => exact ht.layout _ _ _) f0
      refine ⟨f, { i with windFarm := some { fd with layouts := none } }, ?_⟩
      simp only
      unfold readFarm
      rw [h1, ok_bind _ (show item (some fd) = .ok fd from rfl), h2, ok_bind _ (show item (some ls) = .ok ls from rfl), ok_bind _ hf0, ok_bind _ hff]
      rfl
  obtain ⟨s, g1⟩ := g1
  obtain ⟨m, g2⟩ := g2
  obtain ⟨f, i1, g3⟩ := g3
  have g4 : ∃ e, getEngine o p i1 = .ok e := by
    unfold getEngine
    cases p.enginePars with
    | some d => obtain ⟨v, hv⟩ := ht.engine d; exact ⟨(some v, i1), by simp only; rw [hv]; rfl⟩
    | none =>
      cases i1.engine with
      | some d =>
        obtain ⟨v, hv⟩ := ht.engine d
        simp only
        rw [hv]
        exact ⟨_, rfl⟩
      | none => exact ⟨_, rfl⟩
  obtain ⟨e, g4⟩ := g4
  have hp : readParts o p i = .ok ⟨some s, some m, some f, e.1, e.2⟩ := by
    unfold readParts
    rw [ok_bind _ g1, ok_bind _ g2, ok_bind _ g3, ok_bind _ g4]
    rfl
  obtain ⟨file, hfile, hty⟩ := hal
  have hal2 : e.2.algorithm = some file := by rw [← hfile]; exact parts_algorithm hp
  obtain ⟨a, hnew⟩ := ht.algo (algoDict o p f s m file)
  have hty2 : ∃ t, item ((if p.iterative = some true then put "algo_type" (o.str "Iterative") file else file).lookup "algo_type") = .ok t := by
    by_cases hit : p.iterative = some true
    · rw [if_pos hit, lookup_put]; exact ⟨_, rfl⟩
    · rw [if_neg hit]
      obtain ⟨t, h5⟩ := Option.isSome_iff_exists.1 (hty.resolve_left hit)
      rw [h5]; exact ⟨t, rfl⟩
  obtain ⟨t, ht2⟩ := hty2
  have hg : getAlgo o p (some f) (some s) (some m) e.2 = .ok (a, { e.2 with algorithm := some (algoDict o p f s m file) }) := by
    unfold getAlgo
    rw [ha]
    simp only
    rw [hal2, ok_bind _ (show item (some file) = .ok file from rfl), ok_bind _ ht2, ok_bind _ hnew]
    rfl
  exact ⟨_, by unfold readDict; rw [ok_bind _ hp]; simp only; rw [ok_bind _ hg]; rfl⟩

/-! ### Command line tools -/

/-- None is None, strings and lists are not. -/
structure Lawful {V : Type} (o : Ops V) : Prop where
  none : o.isNone o.none = true
  str : ∀ s, o.isNone (o.str s) = false
  strs : ∀ l, o.isNone (o.strs l) = false

/-- The option of the command line for a parameter of the algorithm. -/
def cliOption {V : Type} (o : Ops V) (a : Cli) (k : String) : Option V :=
  if k = "rotor_model" then a.rotor.map o.str
  else if k = "partial_wakes" then a.pwakes.map o.strs
  else if k = "wake_models" then a.wakes.map o.strs
  else if k = "wake_frame" then a.frame.map o.str
  else if k = "verbosity" then a.verbosity.map (fun v => o.int (v - 1))
  else if k = "algo_type" ∧ a.iterative = true then some (o.str "Iterative")
  else none

lemma cliAlgo_last {V : Type} (o : Ops V) (hl : Lawful o) (a : Cli) (k : String) : lastOf k ((cliAlgo o a).filter (fun q => !o.isNone q.2)) =
    if k = "rotor_model" then a.rotor.map o.str else if k = "partial_wakes" then a.pwakes.map o.strs else if k = "wake_models" then a.wakes.map o.strs
    else if k = "wake_frame" then a.frame.map o.str else none := by
  have step : ∀ {A : Type} (x : String) (f : A → V) (hf : ∀ a, o.isNone (f a) = false) (v : Option A) (l : D V),
      lastOf k (((x, optV o f v) :: l).filter (fun q => !o.isNone q.2)) = (lastOf k (l.filter (fun q => !o.isNone q.2))).or (if k = x then v.map f else none) := by
    intro A x f hf v l
    cases v with
    | none => simp [optV, hl.none]
    | some w =>
      rw [List.filter_cons, if_pos (by simp [optV, hf w])]
      rw [lastOf_cons]; rfl
  unfold cliAlgo
  rw [step _ _ hl.str, step _ _ hl.strs, step _ _ hl.strs, step _ _ hl.str]
  by_cases h1 : k = "rotor_model"
  · subst h1; simp [lastOf]
  · by_cases h2 : k = "partial_wakes"
    · subst h2; simp [lastOf]
    · by_cases h3 : k = "wake_models"
      · subst h3; simp [lastOf]
      · simp [h1, h2, h3, lastOf]

/-- `foxes_yaml`: every parameter of the algorithm is the one of the command line if given there, else the one of the file, except for farm, states and model book, which are described
by the file. -/
theorem C70_yaml {V : Type} (o : Ops V) (oo : OutOps V) (hl : Lawful o) (a : Cli) (i : IDict V) (r : RunRes V) (h : (foxesYaml o oo a i).1 = .ok r) :
    ∃ alg en i' states mbook farm file ad, readDict o (yamlParams o a) i = .ok (alg, en, i') ∧ Described o (yamlParams o a) i states mbook farm ∧ i.algorithm = some file ∧
      o.newAlgo ad = .ok alg ∧ ∀ k, ad.lookup k = (cliOption o a k).or
        (if k = "farm" then some farm else if k = "states" then some states else if k = "mbook" then some mbook else file.lookup k) := by
  obtain ⟨alg, en, i', h1, _⟩ := runDict_ok h
  obtain ⟨s, m, f, file, ad, hd, hfile, hnew, _, hk⟩ := C70_algorithm o _ i i' alg en rfl h1
  refine ⟨alg, en, i', s, m, f, file, ad, h1, hd, hfile, hnew, fun k => ?_⟩
  rw [hk]
  unfold algoValue cliOption
  simp only [yamlParams]
  rw [cliAlgo_last o hl]
  by_cases h1 : k = "rotor_model"
  · subst h1; simp
  by_cases h2 : k = "partial_wakes"
  · subst h2; simp
  by_cases h3 : k = "wake_models"
  · subst h3; simp
  by_cases h4 : k = "wake_frame"
  · subst h4; simp
  by_cases h5 : k = "verbosity"
  · subst h5; simp
  by_cases h6 : k = "farm"
  · subst h6; simp
  by_cases h7 : k = "states"
  · subst h7; simp
  by_cases h8 : k = "mbook"
  · subst h8; simp
  simp only [h1, h2, h3, h4, h5, h6, h7, h8, if_false, Option.none_or, Option.some.injEq]
  split <;> simp

/-- `foxes_yaml` without options for the engine uses the engine of the file, if any. -/
theorem C70_yaml_engine_file {V : Type} (o : Ops V) (a : Cli) (i i' : IDict V) (alg : V) (en : Option V) (h : readDict o (yamlParams o a) i = .ok (alg, en, i'))
    (ha : a.engine = none) (hn : a.nProcs = none) (hs : a.chunkStates = none) (hp : a.chunkPoints = none) :
    match i.engine with
    | some d => ∃ e, en = some e ∧ o.newEngine d = .ok e
    | none => en = none := by
  have := C70_engine o _ i i' alg en h
  have he : (yamlParams o a).enginePars = none := by simp [yamlParams, cliEngine, ha, hn, hs, hp]
  rw [he, Option.none_or] at this
  exact this

/-- Finding: as soon as one option for the engine is given, all settings of the file for the engine are lost: the others are None, also the type. -/
theorem C70_yaml_engine_lost {V : Type} (o : Ops V) (a : Cli) (i i' : IDict V) (alg : V) (en : Option V) (h : readDict o (yamlParams o a) i = .ok (alg, en, i'))
    (ha : a.engine.isSome ∨ a.nProcs.isSome ∨ a.chunkStates.isSome ∨ a.chunkPoints.isSome) :
    ∃ e, en = some e ∧ o.newEngine [("engine_type", (a.engine.map o.str).getD o.none), ("n_procs", (a.nProcs.map o.int).getD o.none),
      ("chunk_size_states", (a.chunkStates.map o.int).getD o.none), ("chunk_size_points", (a.chunkPoints.map o.int).getD o.none), ("verbosity", o.int (a.verbosity.getD 1))] = .ok e := by
  have := C70_engine o _ i i' alg en h
  have hv : ∀ {A : Type} (f : A → V) (x : Option A), optV o f x = (x.map f).getD o.none := by intro A f x; cases x <;> rfl
  have he : (yamlParams o a).enginePars = some [("engine_type", (a.engine.map o.str).getD o.none), ("n_procs", (a.nProcs.map o.int).getD o.none),
      ("chunk_size_states", (a.chunkStates.map o.int).getD o.none), ("chunk_size_points", (a.chunkPoints.map o.int).getD o.none), ("verbosity", o.int (a.verbosity.getD 1))] := by
    simp only [yamlParams, cliEngine, if_pos ha, hv]
  rw [he, Option.some_or] at this
  exact this

/-- Finding: the option for the output directory of `foxes_windio` always fails. -/
theorem C70_windio_output_dir_refused {V : Type} (o : Ops V) (oo : OutOps V) (a : Cli) (algo : V) (i : IDict V) (h : a.outputDir.isSome) :
    foxesWindio o oo a algo i = (.error .type, [], i) := by
  simp [foxesWindio, h]

/-- Finding: the options for rotor, partial wakes, wakes, frame and iterations of `foxes_windio` have no effect. -/
theorem C70_windio_options_ignored {V : Type} (o : Ops V) (oo : OutOps V) (a : Cli) (algo : V) (i : IDict V) (rotor frame : Option String) (pwakes wakes : Option (List String)) (it : Bool) :
    foxesWindio o oo { a with rotor := rotor, frame := frame, pwakes := pwakes, wakes := wakes, iterative := it } algo i = foxesWindio o oo a algo i := by
  unfold foxesWindio
  simp only
  split
  · rfl
  · unfold runDict
    have : ∀ (p : Params V) (j : IDict V) (it : Option Bool) (ap : D V), readParts o { p with iterative := it, algoPars := ap } j = readParts o p j := fun _ _ _ _ => rfl
    have e := this (windioParams o a algo) i (some it) (cliAlgo o { a with rotor := some (rotor.getD "centre"), frame := some (frame.getD "rotor_wd"), chunkPoints := some (a.chunkPoints.getD 5000), iterative := it, pwakes := some (pwakes.getD ["centre"]), wakes := some (wakes.getD ["Jensen_linear_k007"]) })
    have e2 : readParts o (windioParams o { a with rotor := rotor, frame := frame, pwakes := pwakes, wakes := wakes, iterative := it } algo) i = readParts o (windioParams o a algo) i := e
    rw [e2]
    cases readParts o (windioParams o a algo) i <;> rfl

/-- `foxes_windio` makes an engine in any case, with 5000 points per chunk if not given otherwise, and uses the algorithm of the windIO file. -/
theorem C70_windio {V : Type} (o : Ops V) (oo : OutOps V) (a : Cli) (algo : V) (i : IDict V) (r : RunRes V) (h : (foxesWindio o oo a algo i).1 = .ok r) :
    ∃ e i', readDict o (windioParams o a algo) i = .ok (algo, some e, i') ∧ o.newEngine [("engine_type", (a.engine.map o.str).getD o.none), ("n_procs", (a.nProcs.map o.int).getD o.none),
      ("chunk_size_states", (a.chunkStates.map o.int).getD o.none), ("chunk_size_points", o.int (a.chunkPoints.getD 5000)), ("verbosity", o.int (a.verbosity.getD 1))] = .ok e := by
  unfold foxesWindio at h
  split at h
  · simp at h
  obtain ⟨alg, en, i', h1, _⟩ := runDict_ok h
  have h2 := C70_given_algorithm o _ i i' algo alg en rfl h1
  subst h2
  have h3 := C70_engine o _ i i' alg en h1
  have hv : ∀ {A : Type} (f : A → V) (x : Option A), optV o f x = (x.map f).getD o.none := by intro A f x; cases x <;> rfl
  have he : (windioParams o a alg).enginePars = some [("engine_type", (a.engine.map o.str).getD o.none), ("n_procs", (a.nProcs.map o.int).getD o.none),
      ("chunk_size_states", (a.chunkStates.map o.int).getD o.none), ("chunk_size_points", o.int (a.chunkPoints.getD 5000)), ("verbosity", o.int (a.verbosity.getD 1))] := by
    simp only [windioParams, cliEngine, Option.isSome_some, or_true, if_true, hv]
    rfl
  rw [he, Option.some_or] at h3
  obtain ⟨e, h3, h4⟩ := h3
  subst h3
  exact ⟨e, i', h1, h4⟩

/-! ### Example -/

/-- Values are strings. -/
def exOps : Ops String where
  int n := toString n
  str s := s
  truth s := s ≠ "False"
  none := "None"
  isNone s := s = "None"
  strs l := ",".intercalate l ++ "."
  newStates d := .ok ("S" ++ (d.map Prod.snd).foldl (· ++ ·) "")
  newBook := "B"
  addModel b s n _ := .ok (b ++ s ++ n)
  newFarm _ := .ok "F"
  addLayout f n d := .ok (f ++ n ++ (d.map Prod.snd).foldl (· ++ ·) "")
  newEngine d := .ok ("E" ++ (d.map Prod.snd).foldl (· ++ ·) "")
  newAlgo d := .ok ("A" ++ (d.map (fun p => p.1 ++ ":" ++ p.2 ++ ";")).foldl (· ++ ·) "")
  algoFarm _ := "F"
  calcFarm _ d := if d.lookup "fail" = some "True" then .error .value else .ok "farm_results"
  calcPoints _ _ pts _ := .ok ("results at " ++ pts)

/-- Outputs for strings. -/
def exOut : OutOps String where
  none := "None"
  str s := s
  new t _ := .ok t
  needsFarmResults t := t = "Table"
  call obj n d := .ok (obj ++ "." ++ n ++ "(" ++ (d.map Prod.snd).foldl (· ++ ·) "" ++ ")")
  nth v n := .ok (v ++ "#" ++ toString n)
  index v l := .ok (v ++ toString l)

def exDict : IDict String where
  states := some [("ws", "8")]
  modelBook := some [("rotor_models", [(some "r1", [])])]
  windFarm := some { layouts := some [(some "add_row", [("n", "3")])], pars := [] }
  engine := some [("engine_type", "numpy")]
  algorithm := some [("algo_type", "Downwind"), ("rotor_model", "centre")]
  calcFarm := some [("run", "True")]
  outputs := some [{ type := some "Table", functions := some [{ fn := some "f", labels := some (.many ["$x", "_", "$y"]), args := [("a", .str "b")] },
      { fn := some "g", labels := some (.one "$x"), args := [("a", .str "$x[1]")] }] }, { object := some "$x", functions := some [{ fn := some "h", args := [("u", .str "$y")] }] }]

/-- A run of the example, with the rotor of the command line. -/
theorem C70_example : ((foxesYaml exOps exOut { rotor := some "grid4", verbosity := some 1 } exDict).1.toOption.map (fun r => (r.farm, r.points))) = some (some "farm_results", none) ∧
    (foxesYaml exOps exOut { rotor := some "grid4", verbosity := some 1 } exDict).2.1 = [.init, .farm, .outputs, .finalize] ∧
    ((readDict exOps (yamlParams exOps { rotor := some "grid4", verbosity := some 1 }) exDict).toOption.map (fun r => (r.1, r.2.1))) =
      some ("Aalgo_type:Downwind;rotor_model:grid4;farm:Fadd_row30;states:S8;mbook:Brotor_modelsr1;verbosity:0;", some "Enumpy") := by
  decide +kernel

/-- Labels of the example. -/
theorem C70_example_labels : (match runOutputs exOut true exDict.outputs false with
    | .ok (.both r rl) => some (r, rl)
    | _ => none) = some ([some ["Table.f(b)", "Table.g(Table.f(b)#0[1])"], some ["Table.g(Table.f(b)#0[1]).h(Table.f(b)#2)"]], [("$x", "Table.g(Table.f(b)#0[1])"), ("$y", "Table.f(b)#2")]) := by
  decide +kernel

/-- The hypotheses of the theorems about second runs are met by the example; the second run fails. -/
example : (match (runDict exOps exOut {} exDict).1 with | .ok _ => true | .error _ => false) = true ∧
    (match (runDict exOps exOut {} (runDict exOps exOut {} exDict).2.2).1 with | .ok _ => none | .error e => some e) = some Err.key := by
  decide +kernel

/-- An error in the farm calculation leaves the engine open. -/
example : (match (runDict exOps exOut {} { exDict with calcFarm := some [("fail", "True")] }).1 with | .ok _ => true | .error _ => false) = false ∧
    (runDict exOps exOut {} { exDict with calcFarm := some [("fail", "True")] }).2.1 = [.init] := by
  decide +kernel

/-- The hypotheses of `C70_repeatable_partial` can be met. -/
example : (match (runDict exOps exOut { farm := some "F", states := some "S", mbook := some "B" } { exDict with calcFarm := none }).1 with | .ok _ => true | .error _ => false) = true := by
  decide +kernel

/-- The hypotheses of the theorem about point calculations can be met. -/
example : ((runDict exOps exOut {} { exDict with calcPoints := some [("run", "True"), ("points", "p")] }).1.toOption.map (fun r => r.points)) = some (some (some "results at p")) := by
  decide +kernel

example : Lawful { exOps with isNone := fun s => s = "None" ∧ False ∨ s = "None", str := fun s => "'" ++ s ++ "'" } := by
  refine ⟨by simp [exOps], fun s => ?_, fun l => ?_⟩
  · simp only [and_false, false_or, decide_eq_false_iff_not]
    intro h
    have := congrArg String.toList h
    simp at this
  · simp only [exOps, and_false, false_or, decide_eq_false_iff_not]
    intro h
    have := congrArg (fun s => s.toList.getLast?) h
    simp at this

example : Total { exOps with calcFarm := exOps.calcFarm } := ⟨fun _ => ⟨_, rfl⟩, fun _ _ _ _ => ⟨_, rfl⟩, fun _ => ⟨_, rfl⟩, fun _ _ _ => ⟨_, rfl⟩, fun _ => ⟨_, rfl⟩, fun _ => ⟨_, rfl⟩⟩

end Foxes.Props.YamlRun
