import Verif.Model.ChunkData
import Verif.Props.DataBox
import Mathlib.Algebra.Order.BigOperators.Group.Finset
import Mathlib.Algebra.BigOperators.Ring.Finset
import Mathlib.Tactic.Linarith
import Mathlib.Tactic.Ring
/-
C68: farm data, target data, and the input of one chunk.
-/
namespace Foxes.Props.ChunkData
open Foxes.DataBox Foxes.ChunkData Foxes.Props.DataBox

section
variable {V : Type}

/-! ### Sizes -/

/-- every known size is the one of `sz`, or one -/
def Sub (sz : String → ℕ) (sizes : List (String × ℕ)) : Prop := ∀ c m, sizes.lookup c = some m → m = sz c ∨ m = 1

lemma sub_insert {sz : String → ℕ} {sizes : List (String × ℕ)} (h : Sub sz sizes) (c : String) (n : ℕ) (hn : n = sz c ∨ n = 1) : Sub sz (insertKey c n sizes) := by
  intro c' m hm
  rw [lookup_insertKey] at hm
  by_cases hc : c' = c
  · rw [if_pos hc] at hm
    obtain rfl := Option.some.inj hm
    rw [hc]; exact hn
  · rw [if_neg hc] at hm
    exact h c' m hm

lemma exact_later {sz : String → ℕ} {s s' : List (String × ℕ)} (hg : Grows s s') (hs : Sub sz s') (c : String) (h : s.lookup c = some (sz c)) :
    s'.lookup c = some (sz c) := by
  obtain ⟨m', h1, h2⟩ := hg c _ h
  rcases h2 with rfl | h2
  · exact h1
  · rcases hs c m' h1 with rfl | h3
    · exact h1
    · rw [h1, h3, h2]

lemma checkSizes_good (sz : String → ℕ) (sizes : List (String × ℕ)) (cs : List String) (ns : List ℕ) (h : List.Forall₂ (fun c n => n = sz c ∨ n = 1) cs ns)
    (hs : Sub sz sizes) :
    (checkSizes sizes cs ns).2 = none ∧ Sub sz (checkSizes sizes cs ns).1 ∧ (∀ c ∈ cs, ((checkSizes sizes cs ns).1.lookup c).isSome) := by
  induction h generalizing sizes with
  | nil => exact ⟨rfl, hs, by simp⟩
  | @cons c n cs ns hn hr ih =>
    have main : ∀ s' : List (String × ℕ), Sub sz s' → (s'.lookup c).isSome → (checkSizes s' cs ns).2 = none ∧ Sub sz (checkSizes s' cs ns).1 ∧
        (∀ c' ∈ c :: cs, ((checkSizes s' cs ns).1.lookup c').isSome) := by
      intro s' h1 h2
      obtain ⟨a, b, d⟩ := ih s' h1
      refine ⟨a, b, ?_⟩
      intro c' hc'
      rcases List.mem_cons.1 hc' with rfl | hc'
      · obtain ⟨m, hm⟩ := Option.isSome_iff_exists.1 h2
        obtain ⟨m', hm', _⟩ := (checkSizes_spec s' cs ns).1 c' m hm
        rw [hm']; rfl
      · exact d c' hc'
    simp only [checkSizes]
    cases hl : sizes.lookup c with
    | none => exact main _ (sub_insert hs c n hn) (by rw [lookup_insertKey]; simp)
    | some m =>
      simp only
      split
      · exact main _ (sub_insert hs c n hn) (by rw [lookup_insertKey]; simp)
      · rename_i h1
        split
        · exact main _ hs (by rw [hl]; rfl)
        · rename_i h2
          have hmn : m = n := by
            rcases hs c m hl with h3 | h3
            · rcases hn with h4 | h4
              · rw [h3, h4]
              · exact absurd h4 h2
            · exact absurd h3 h1
          rw [if_neg (by simp [hmn])]
          exact main _ hs (by rw [hl]; rfl)

lemma checkSizes_exact (sz : String → ℕ) (sizes : List (String × ℕ)) (cs : List String) (hs : Sub sz sizes) :
    ∀ c ∈ cs, (checkSizes sizes cs (cs.map sz)).1.lookup c = some (sz c) := by
  induction cs generalizing sizes with
  | nil => simp
  | cons c cs ih =>
    have key : ∀ l : List String, List.Forall₂ (fun c n => n = sz c ∨ n = 1) l (l.map sz) := by
      intro l
      induction l with
      | nil => exact .nil
      | cons a l ih => exact .cons (Or.inl rfl) ih
    have main : ∀ s' : List (String × ℕ), Sub sz s' → s'.lookup c = some (sz c) → ∀ c' ∈ c :: cs, (checkSizes s' cs (cs.map sz)).1.lookup c' = some (sz c') := by
      intro s' h1 h2 c' hc'
      rcases List.mem_cons.1 hc' with rfl | hc'
      · exact exact_later (checkSizes_spec s' cs _).1 (checkSizes_good sz s' cs _ (key cs) h1).2.1 c' h2
      · exact ih s' h1 c' hc'
    simp only [List.map_cons, checkSizes]
    cases hl : sizes.lookup c with
    | none => exact main _ (sub_insert hs c _ (Or.inl rfl)) (by rw [lookup_insertKey]; simp)
    | some m =>
      simp only
      split
      · exact main _ (sub_insert hs c _ (Or.inl rfl)) (by rw [lookup_insertKey]; simp)
      · rename_i h1
        have hm : m = sz c := by
          rcases hs c m hl with h3 | h3
          · exact h3
          · exact absurd h3 h1
        split
        · exact main _ hs (by rw [hl, hm])
        · rw [if_neg (by simp [hm])]
          exact main _ hs (by rw [hl, hm])

/-! ### Acceptance -/

/-- An entry fits to sizes `sz`: its shape is the sizes of its dimensions; weights may have one turbine only. -/
def Good (sz : String → ℕ) (p : String × Entry V) : Prop :=
  ∃ l, p.2.dims = some l ∧ (p.2.arr.shape = l.map sz ∨ (p.1 = "weight" ∧ l = ["state", "turbine"] ∧ p.2.arr.shape = [sz "state", 1]))

/-- What the classes demand from an entry, in words of their documentation: farm data has dimensions (state, turbine), target data has dimensions
(state, target, point); exempt are the coordinates of dimensions, turbine names, weights, and the points and their weights. -/
def ClassOk (k : Kind) (sz : String → ℕ) (p : String × Entry V) : Prop :=
  match k with
  | .model => True
  | .farm => p.1 ∈ dimsOf p.2 ∨ p.1 = "tname" ∨ p.1 = "weight" ∨ ["state", "turbine"] <+: dimsOf p.2
  | .target =>
    (p.1 = "targets" ∧ dimsOf p.2 = ["state", "target", "target_point", "xyh"] ∧ sz "xyh" = 3) ∨
    (p.1 = "tpoint_weights" ∧ dimsOf p.2 = ["target_point"]) ∨
    (p.1 ≠ "targets" ∧ p.1 ≠ "tpoint_weights" ∧ (p.1 ∈ dimsOf p.2 ∨ ["state", "target", "target_point"] <+: dimsOf p.2))

lemma good_forall2 {sz : String → ℕ} {p : String × Entry V} (h : Good sz p) :
    ∃ l, p.2.dims = some l ∧ l.length = p.2.arr.shape.length ∧ List.Forall₂ (fun c n => n = sz c ∨ n = 1) l p.2.arr.shape := by
  have key : ∀ l : List String, List.Forall₂ (fun c n => n = sz c ∨ n = 1) l (l.map sz) := by
    intro l
    induction l with
    | nil => exact .nil
    | cons a l ih => exact .cons (Or.inl rfl) ih
  obtain ⟨l, h1, h2 | ⟨_, rfl, h2⟩⟩ := h
  · exact ⟨l, h1, by rw [h2]; simp, by rw [h2]; exact key l⟩
  · exact ⟨_, h1, by rw [h2]; simp, by rw [h2]; exact .cons (Or.inl rfl) (.cons (Or.inr rfl) .nil)⟩

lemma checks_good (k : Kind) (sz : String → ℕ) (d : Data V) (p : String × Entry V) (hp : d.entries.lookup p.1 = some p.2) (hg : Good sz p) (hc : ClassOk k sz p)
    (hs : Sub sz d.sizes) (ht : k = .target → (d.entries.lookup "targets").isSome ∧ (d.entries.lookup "tpoint_weights").isSome) :
    ∃ s', checks k d p.1 p.2 = .ok { d with sizes := s' } ∧ Sub sz s' ∧ Grows d.sizes s' ∧ (∀ c ∈ dimsOf p.2, (s'.lookup c).isSome) ∧
      (p.2.arr.shape = (dimsOf p.2).map sz → ∀ c ∈ dimsOf p.2, s'.lookup c = some (sz c)) := by
  obtain ⟨v, e⟩ := p
  simp only at hp hg hc
  obtain ⟨l, hl, hlen, hf⟩ := good_forall2 hg
  simp only at hl hlen hf
  have hdo : dimsOf e = l := by simp [dimsOf, hl]
  obtain ⟨c1, c2, c3⟩ := checkSizes_good sz d.sizes l e.arr.shape hf hs
  have hex : e.arr.shape = l.map sz → ∀ c ∈ l, (checkSizes d.sizes l e.arr.shape).1.lookup c = some (sz c) := by
    intro h; rw [h]; exact checkSizes_exact sz d.sizes l hs
  have hent : entryChecks d v e = ({ d with sizes := (checkSizes d.sizes l e.arr.shape).1 }, none) := by
    have he : (⟨e.arr, some l⟩ : Entry V) = e := by cases e; simp at hl; simp [hl]
    simp only [entryChecks, hl, kept, hlen, ne_eq, not_true_eq_false, if_false, he, insertKey_self v e _ hp, c1]
  have hgr := (checkSizes_spec d.sizes l e.arr.shape).1
  generalize (checkSizes d.sizes l e.arr.shape).1 = S at c2 c3 hex hent hgr
  refine ⟨S, ?_, c2, hgr, ?_, ?_⟩
  · simp only [checks, hent]
    suffices h : classCheck k { d with sizes := S } v = none by rw [h]
    cases k with
    | model => rfl
    | farm =>
      simp only [classCheck, farmCheck, hp]
      simp only [ClassOk, hdo] at hc
      split
      · rfl
      · rename_i hno
        push Not at hno
        rcases hc with hc | hc | hc | hc
        · exact absurd (c3 v hc) (by simpa using hno.1)
        · exact absurd hc hno.2.1
        · exact absurd hc hno.2.2
        · obtain ⟨r, rfl⟩ := hc
          rw [if_neg (by rw [← hlen]; simp)]
          simp [hl]
    | target =>
      obtain ⟨t1, t2⟩ := ht rfl
      simp only [classCheck, targetCheck, hp]
      simp only [ClassOk, hdo] at hc
      rcases hc with ⟨rfl, rfl, h3⟩ | ⟨rfl, rfl⟩ | ⟨hn1, hn2, hc⟩
      · have hsh : e.arr.shape = ["state", "target", "target_point", "xyh"].map sz := by
          obtain ⟨l', h1, h2 | ⟨h2, _⟩⟩ := hg
          · simp only [hl, Option.some.injEq] at h1; subst h1; exact h2
          · simp at h2
        have hx := hex hsh
        simp only [List.map_cons, List.map_nil] at hsh
        simp only [hx "target" (by simp), hx "target_point" (by simp), hx "state" (by simp), hl, hsh, h3]
        simp
      · have hsh : e.arr.shape = ["target_point"].map sz := by
          obtain ⟨l', h1, h2 | ⟨h2, _⟩⟩ := hg
          · simp only [hl, Option.some.injEq] at h1; subst h1; exact h2
          · simp at h2
        have hx := hex hsh
        rw [if_neg (by decide), if_pos rfl]
        simp only [hx "target_point" (by simp), hl]
        simp [hsh]
      · rw [if_neg hn1, if_neg hn2, if_neg (by simpa using Option.isSome_iff_ne_none.1 t1), if_neg (by simpa using Option.isSome_iff_ne_none.1 t2)]
        split
        · rfl
        · rename_i hno
          rcases hc with hc | hc
          · exact absurd (c3 v hc) hno
          · obtain ⟨r, rfl⟩ := hc
            obtain ⟨n1, e1⟩ := Option.isSome_iff_exists.1 (c3 "target" (by simp))
            obtain ⟨n2, e2⟩ := Option.isSome_iff_exists.1 (c3 "target_point" (by simp))
            simp only [e1, e2]
            rw [if_neg (by rw [← hlen]; simp)]
            simp [hl]
  · rw [hdo]; exact c3
  · rw [hdo]; exact hex

lemma checkLoop_good (k : Kind) (sz : String → ℕ) (l : List (String × Entry V)) (d : Data V) (hl : ∀ p ∈ l, d.entries.lookup p.1 = some p.2)
    (hg : ∀ p ∈ l, Good sz p) (hc : ∀ p ∈ l, ClassOk k sz p) (hs : Sub sz d.sizes)
    (ht : k = .target → (d.entries.lookup "targets").isSome ∧ (d.entries.lookup "tpoint_weights").isSome) :
    ∃ s', checkLoop k d l = .ok { d with sizes := s' } ∧ Sub sz s' ∧ Grows d.sizes s' ∧ (∀ p ∈ l, ∀ c ∈ dimsOf p.2, (s'.lookup c).isSome) ∧
      (∀ p ∈ l, p.2.arr.shape = (dimsOf p.2).map sz → ∀ c ∈ dimsOf p.2, s'.lookup c = some (sz c)) := by
  induction l generalizing d with
  | nil => exact ⟨d.sizes, rfl, hs, Grows.refl _, by simp, by simp⟩
  | cons p l ih =>
    obtain ⟨s1, e1, b1, g1, m1, x1⟩ := checks_good k sz d p (hl p (by simp)) (hg p (by simp)) (hc p (by simp)) hs ht
    obtain ⟨s2, e2, b2, g2, m2, x2⟩ := ih { d with sizes := s1 } (fun q hq => hl q (by simp [hq])) (fun q hq => hg q (by simp [hq]))
      (fun q hq => hc q (by simp [hq])) b1 ht
    refine ⟨s2, ?_, b2, g1.trans g2, ?_, ?_⟩
    · obtain ⟨v, e⟩ := p
      simp only at e1
      simp only [checkLoop, e1, e2]
    · intro q hq c hcq
      rcases List.mem_cons.1 hq with rfl | hq
      · obtain ⟨m, hm⟩ := Option.isSome_iff_exists.1 (m1 c hcq)
        obtain ⟨m', hm', _⟩ := g2 c m hm
        rw [hm']; rfl
      · exact m2 q hq c hcq
    · intro q hq hsh c hcq
      rcases List.mem_cons.1 hq with rfl | hq
      · exact exact_later g2 b2 c (x1 hsh c hcq)
      · exact x2 q hq hsh c hcq

lemma insertKey_new {α : Type} (k : String) (x : α) (l : List (String × α)) (h : l.lookup k = none) : insertKey k x l = l ++ [(k, x)] := by
  induction l with
  | nil => rfl
  | cons p l ih =>
    obtain ⟨a, y⟩ := p
    by_cases hk : k = a
    · subst hk; simp at h
    · simp only [List.lookup, beq_eq_false_iff_ne.2 hk] at h
      simp only [insertKey, if_neg (fun e : a = k => hk e.symm), ih h, List.cons_append]

lemma stack_good (sz : String → ℕ) (d : Data V) (hg : ∀ v e, d.entries.lookup v = some e → Good sz (v, e)) :
    ∃ es', stack d = .ok { d with entries := es' } ∧
      (es' = d.entries ∧ ¬ (d.entries.lookup "txyh" = none ∧ ∃ x y h, d.entries.lookup "X" = some x ∧ d.entries.lookup "Y" = some y ∧ d.entries.lookup "H" = some h ∧
          x.dims = y.dims ∧ x.dims = h.dims) ∨
       ∃ x y h, d.entries.lookup "txyh" = none ∧ d.entries.lookup "X" = some x ∧ d.entries.lookup "Y" = some y ∧ d.entries.lookup "H" = some h ∧
          x.dims = y.dims ∧ x.dims = h.dims ∧ es' = d.entries ++ [("txyh", ⟨stackLast x.arr y.arr h.arr, some (dimsOf x ++ ["xyh"])⟩)]) := by
  unfold stack
  split
  · rename_i x y h e1 e2 e3 e4
    split
    · rename_i hd
      obtain ⟨lx, dx, sx⟩ := hg _ _ e2
      obtain ⟨ly, dy, sy⟩ := hg _ _ e3
      obtain ⟨lh, dh, sh⟩ := hg _ _ e4
      simp only at dx dy dh sx sy sh
      have hxy : lx = ly := by rw [dx, dy] at hd; simpa using hd.1
      have hxh : lx = lh := by rw [dx, dh] at hd; simpa using hd.2
      subst hxy; subst hxh
      have sx' : x.arr.shape = lx.map sz := by rcases sx with h | ⟨h, _⟩; exact h; simp at h
      have sy' : y.arr.shape = lx.map sz := by rcases sy with h | ⟨h, _⟩; exact h; simp at h
      have sh' : h.arr.shape = lx.map sz := by rcases sh with h | ⟨h, _⟩; exact h; simp at h
      rw [if_pos ⟨by rw [sx', sy'], by rw [sx', sh']⟩]
      simp only [dx]
      refine ⟨_, rfl, Or.inr ⟨x, y, h, e1, e2, e3, e4, hd.1, hd.2, ?_⟩⟩
      rw [insertKey_new _ _ _ e1]
      simp [dimsOf, dx]
    · rename_i hd
      refine ⟨_, rfl, Or.inl ⟨rfl, ?_⟩⟩
      rintro ⟨_, x', y', h', a, b, c, e⟩
      rw [e2] at a; rw [e3] at b; rw [e4] at c
      simp only [Option.some.injEq] at a b c
      subst a; subst b; subst c
      exact hd e
  · rename_i hno
    refine ⟨_, rfl, Or.inl ⟨rfl, ?_⟩⟩
    rintro ⟨h0, x', y', h', a, b, c, _⟩
    exact hno x' y' h' h0 a b c

/-- The constructor accepts entries that fit, keeps all of them, and adds what is missing: the sizes, the coordinates of dimensions and the combined positions. -/
lemma construct_good (k : Kind) (coord : ℕ → V) (sz : String → ℕ) (es : List (String × Entry V)) (ld : List String) (i0 : Option ℕ)
    (hk : (es.map Prod.fst).Nodup) (hg : ∀ p ∈ es, Good sz p) (hc : ∀ p ∈ es, ClassOk k sz p)
    (hf : k = .farm → ∀ x ∈ ["state", "turbine"], ∃ p ∈ es, x ∈ dimsOf p.2)
    (ht : k = .target → (es.lookup "targets").isSome ∧ (es.lookup "tpoint_weights").isSome) :
    ∃ d, construct k coord es ld i0 = .ok d ∧ d.i0 = i0 ∧ d.loopDims = ld ∧ (∀ v e, es.lookup v = some e → d.entries.lookup v = some e) ∧
      Sub sz d.sizes ∧ (∀ p ∈ es, p.2.arr.shape = (dimsOf p.2).map sz → ∀ c ∈ dimsOf p.2, d.sizes.lookup c = some (sz c)) ∧
      (∀ p ∈ es, ∀ c ∈ dimsOf p.2, c ≠ "txyh" → es.lookup c = none → ∃ n, d.sizes.lookup c = some n ∧
        d.entries.lookup c = some ⟨⟨[n], fun idx => coord (idx.headD 0)⟩, some [c]⟩) ∧
      (∀ x y h, es.lookup "txyh" = none → es.lookup "X" = some x → es.lookup "Y" = some y → es.lookup "H" = some h → x.dims = y.dims → x.dims = h.dims →
        d.entries.lookup "txyh" = some ⟨stackLast x.arr y.arr h.arr, some (dimsOf x ++ ["xyh"])⟩) := by
  obtain ⟨s', e1, b1, g1, m1, x1⟩ := checkLoop_good k sz es { entries := es, sizes := [], loopDims := ld, i0 := i0 }
    (fun p hp => lookup_of_mem es hk p.1 p.2 hp) hg hc (by intro c m h; simp at h) ht
  obtain ⟨es', e2, hes⟩ := stack_good sz (V := V) { entries := es, sizes := s', loopDims := ld, i0 := i0 }
    (fun v e h => hg (v, e) (mem_of_lookup es v e h))
  simp only at hes
  have hkeep : ∀ v e, es.lookup v = some e → es'.lookup v = some e := by
    intro v e h
    rcases hes with ⟨rfl, _⟩ | ⟨x, y, hh, h0, _, _, _, _, _, rfl⟩
    · exact h
    · rw [List.lookup_append, h]; rfl
  have hin : ∀ p ∈ es, p ∈ es' := by
    intro p hp
    rcases hes with ⟨rfl, _⟩ | ⟨x, y, hh, h0, _, _, _, _, _, rfl⟩
    · exact hp
    · simp [hp]
  obtain ⟨c1, c2, c3⟩ := coordFold_spec coord s' (dimNames es') es'
  set d : Data V := autoUpdate coord { entries := es', sizes := s', loopDims := ld, i0 := i0 } with hd
  have hde : d.entries = (dimNames es').foldl (coordStep coord s') es' := rfl
  have hds : d.sizes = s' := rfl
  have hlast : lastCheck k d = none := by
    unfold lastCheck
    split
    · rfl
    · cases k with
      | model => rfl
      | farm =>
        simp only
        rw [if_pos]
        rw [List.all_eq_true]
        intro x hx
        obtain ⟨p, hp, hxp⟩ := hf rfl x hx
        rw [hds]
        exact m1 p hp x hxp
      | target =>
        obtain ⟨t1, t2⟩ := ht rfl
        simp only
        rw [if_pos]
        refine ⟨?_, ?_⟩
        · rw [List.all_eq_true]
          intro x hx
          rw [hde]
          have : (es.lookup x).isSome := by
            rcases List.mem_cons.1 hx with rfl | hx
            · exact t1
            · simp only [List.mem_cons, List.not_mem_nil, or_false] at hx; subst hx; exact t2
          obtain ⟨e, he⟩ := Option.isSome_iff_exists.1 this
          rw [c1 x e (hkeep x e he)]; rfl
        · obtain ⟨e, he⟩ := Option.isSome_iff_exists.1 t1
          have hmem := mem_of_lookup es _ _ he
          have hdim : dimsOf e = ["state", "target", "target_point", "xyh"] := by
            rcases hc _ hmem with ⟨_, h, _⟩ | ⟨h, _⟩ | ⟨h, _⟩
            · exact h
            · simp at h
            · simp at h
          rw [List.all_eq_true]
          intro x hx
          rw [hds]
          refine m1 _ hmem x ?_
          simp only [hdim]
          simp only [List.mem_cons, List.not_mem_nil, or_false] at hx ⊢
          rcases hx with rfl | rfl | rfl <;> simp
  refine ⟨d, ?_, rfl, rfl, ?_, b1, x1, ?_, ?_⟩
  · simp only [construct, e1, update, e2, bind, Except.bind]
    rw [← hd, hlast]
  · intro v e h
    rw [hde]
    exact c1 v e (hkeep v e h)
  · intro p hp c hcp hct hnone
    obtain ⟨n, hn⟩ := Option.isSome_iff_exists.1 (m1 p hp c hcp)
    refine ⟨n, hn, ?_⟩
    have hcd : c ∈ dimNames es' := by
      simp only [dimNames, List.mem_flatMap]
      exact ⟨p, hin p hp, hcp⟩
    obtain ⟨e, he⟩ := Option.isSome_iff_exists.1 (c3 c hcd n hn)
    rw [hde, he]
    have hnone' : es'.lookup c = none := by
      rcases hes with ⟨rfl, _⟩ | ⟨x, y, hh, h0, _, _, _, _, _, rfl⟩
      · exact hnone
      · rw [List.lookup_append, hnone]
        simp [List.lookup, beq_eq_false_iff_ne.2 hct]
    rcases c2 c e he with h | ⟨_, _, n', hn', rfl⟩
    · rw [hnone'] at h; simp at h
    · rw [hn] at hn'; simp at hn'; subst hn'; rfl
  · intro x y h h0 hx hy hh hxy hxh
    rw [hde]
    apply c1
    rcases hes with ⟨rfl, hno⟩ | ⟨x', y', h', _, a, b, c, _, _, rfl⟩
    · exact absurd ⟨h0, x, y, h, hx, hy, hh, hxy, hxh⟩ hno
    · rw [hx] at a; rw [hy] at b; rw [hh] at c
      simp only [Option.some.injEq] at a b c
      subst a; subst b; subst c
      rw [List.lookup_append, h0]; simp [List.lookup]

/-! ### Windows -/

/-- The specification of a cut: the same dimensions, the given sizes, and each value is the one at the shifted position. -/
def Window (off sz : String → ℕ) (e e' : Entry V) : Prop :=
  ∃ l, e.dims = some l ∧ e'.dims = some l ∧ e'.arr.shape = l.map sz ∧
    ∀ idx, idx.length = l.length → e'.arr.val idx = e.arr.val (List.zipWith (fun c i => i + off c) l idx)

/-- the offset of a chunk of states and targets -/
def offset (s t : ℕ × ℕ) (c : String) : ℕ := if c = "state" then s.1 else if c = "target" then t.1 else 0

/-- the sizes of a chunk of states and targets -/
def chunkSize (sz : String → ℕ) (s t : ℕ × ℕ) (c : String) : ℕ := if c = "state" then s.2 - s.1 else if c = "target" then t.2 - t.1 else sz c

/-- the offset of a chunk of states -/
def offS (s : ℕ × ℕ) (c : String) : ℕ := if c = "state" then s.1 else 0

/-- the sizes of a chunk of states -/
def sizeS (sz : String → ℕ) (s : ℕ × ℕ) (c : String) : ℕ := if c = "state" then s.2 - s.1 else sz c

lemma zip_id (off : String → ℕ) (l : List String) (idx : List ℕ) (h : ∀ c ∈ l, off c = 0) (hl : idx.length = l.length) :
    List.zipWith (fun c i => i + off c) l idx = idx := by
  induction l generalizing idx with
  | nil => simp at hl; simp [hl]
  | cons c l ih =>
    cases idx with
    | nil => simp at hl
    | cons i idx =>
      simp only [List.zipWith_cons_cons, h c (by simp), Nat.add_zero, List.cons.injEq, true_and]
      exact ih idx (fun c' hc' => h c' (by simp [hc'])) (by simpa using hl)

lemma zip_zip (o1 o2 : String → ℕ) (l : List String) (idx : List ℕ) :
    List.zipWith (fun c i => i + o1 c) l (List.zipWith (fun c i => i + o2 c) l idx) = List.zipWith (fun c i => i + (o1 c + o2 c)) l idx := by
  induction l generalizing idx with
  | nil => simp
  | cons c l ih =>
    cases idx with
    | nil => simp
    | cons i idx => simp only [List.zipWith_cons_cons, ih, List.cons.injEq, and_true]; omega

lemma Window.trans {o1 z1 o2 z2 : String → ℕ} {e e1 e2 : Entry V} (h1 : Window o1 z1 e e1) (h2 : Window o2 z2 e1 e2) :
    Window (fun c => o1 c + o2 c) z2 e e2 := by
  obtain ⟨l, a1, a2, a3, a4⟩ := h1
  obtain ⟨l', b1, b2, b3, b4⟩ := h2
  rw [a2] at b1
  simp at b1; subst b1
  refine ⟨l, a1, b2, b3, ?_⟩
  intro idx hi
  rw [b4 idx hi, a4 _ (by simp [hi]), zip_zip]

lemma window_id (off sz : String → ℕ) (e : Entry V) (l : List String) (hd : e.dims = some l) (hs : e.arr.shape = l.map sz) (h : ∀ c ∈ l, off c = 0) :
    Window off sz e e := ⟨l, hd, hd, hs, fun idx hi => by rw [zip_id off l idx h hi]⟩

lemma window_congr {off sz sz' : String → ℕ} {e e' : Entry V} (h : Window off sz e e') (hz : ∀ c ∈ dimsOf e, sz c = sz' c) : Window off sz' e e' := by
  obtain ⟨l, h1, h2, h3, h4⟩ := h
  refine ⟨l, h1, h2, ?_, h4⟩
  rw [h3]
  apply List.map_congr_left
  intro c hc
  exact hz c (by simpa [dimsOf, h1] using hc)

lemma window_off {off off' sz : String → ℕ} {e e' : Entry V} (h : Window off sz e e') (hz : ∀ c, off c = off' c) : Window off' sz e e' := by
  have : off = off' := funext hz
  rwa [← this]

/-- cutting the first axis -/
lemma window_slice0 (sz : String → ℕ) (w : ℕ × ℕ) (e : Entry V) (c : String) (r : List String) (hd : e.dims = some (c :: r)) (hs : e.arr.shape = (c :: r).map sz)
    (hn : c ∉ r) (hw : w.1 ≤ w.2) (hw2 : w.2 ≤ sz c) :
    Window (fun x => if x = c then w.1 else 0) (fun x => if x = c then w.2 - w.1 else sz x) e ⟨slice0 e.arr w, e.dims⟩ := by
  refine ⟨c :: r, hd, hd, ?_, ?_⟩
  · simp only [slice0, hs, List.map_cons, if_true]
    rw [Nat.min_eq_left hw2, Nat.min_eq_left (hw.trans hw2)]
    congr 1
    apply List.map_congr_left
    intro x hx
    have : x ≠ c := by rintro rfl; exact hn hx
    simp [this]
  · intro idx hi
    cases idx with
    | nil => simp at hi
    | cons i idx =>
      simp only [slice0, hs, List.map_cons, List.zipWith_cons_cons, if_true]
      rw [Nat.min_eq_left (hw.trans hw2), zip_id _ r idx]
      · intro x hx
        have : x ≠ c := by rintro rfl; exact hn hx
        simp [this]
      · simpa using hi

/-- cutting the second axis -/
lemma window_slice1 (sz : String → ℕ) (w : ℕ × ℕ) (e : Entry V) (b c : String) (r : List String) (hd : e.dims = some (b :: c :: r))
    (hs : e.arr.shape = (b :: c :: r).map sz) (hbc : b ≠ c) (hn : c ∉ r) (hw : w.1 ≤ w.2) (hw2 : w.2 ≤ sz c) :
    Window (fun x => if x = c then w.1 else 0) (fun x => if x = c then w.2 - w.1 else sz x) e ⟨slice1 e.arr w, e.dims⟩ := by
  refine ⟨b :: c :: r, hd, hd, ?_, ?_⟩
  · simp only [slice1, hs, List.map_cons, if_true, if_neg hbc]
    rw [Nat.min_eq_left hw2, Nat.min_eq_left (hw.trans hw2)]
    congr 2
    apply List.map_congr_left
    intro x hx
    have : x ≠ c := by rintro rfl; exact hn hx
    simp [this]
  · intro idx hi
    cases idx with
    | nil => simp at hi
    | cons i idx =>
      cases idx with
      | nil => simp at hi
      | cons j idx =>
        simp only [slice1, hs, List.map_cons, List.zipWith_cons_cons, if_true, if_neg hbc, Nat.add_zero]
        rw [Nat.min_eq_left (hw.trans hw2), zip_id _ r idx]
        · intro x hx
          have : x ≠ c := by rintro rfl; exact hn hx
          simp [this]
        · simpa using hi

/-! ### Datasets -/

/-- Datasets as xarray guarantees them, with dimension coordinates only and states first: names are unique, the sizes of the dimensions are common. -/
structure DSOk (sz : String → ℕ) (ds : DS V) : Prop where
  nodup : ((ds.coords ++ ds.vars).map Prod.fst).Nodup
  fit : ∀ p ∈ ds.coords ++ ds.vars, ∃ l, p.2.dims = some l ∧ l.Nodup ∧ p.2.arr.shape = l.map sz
  coord : ∀ p ∈ ds.coords, p.2.dims = some [p.1]
  first : ∀ p ∈ ds.vars, "state" ∈ dimsOf p.2 → (dimsOf p.2).head? = some "state"
  names : ∀ p ∈ ds.vars, p.1 ≠ "state" ∧ p.1 ≠ "target"

/-- weights without turbines -/
def StateWeight (p : String × Entry V) : Prop := p.1 = "weight" ∧ dimsOf p.2 = ["state"]

/-- what becomes of a data variable -/
def varOut (w : ℕ × ℕ) (p : String × Entry V) : String × Entry V :=
  if "state" ∈ dimsOf p.2 then
    if p.1 = "weight" ∧ dimsOf p.2 = ["state"] then (p.1, ⟨addAxis (slice0 p.2.arr w), some ["state", "turbine"]⟩)
    else (p.1, ⟨slice0 p.2.arr w, p.2.dims⟩)
  else p

lemma varsIn_ok (w : ℕ × ℕ) (l : List (String × Entry V)) (h : ∀ p ∈ l, "state" ∈ dimsOf p.2 → (dimsOf p.2).head? = some "state") :
    varsIn (some w) l = .ok (l.map (varOut w)) := by
  induction l with
  | nil => rfl
  | cons p l ih =>
    have hp : varIn (some w) p = .ok (varOut w p) := by
      unfold varIn varOut
      by_cases hs : "state" ∈ dimsOf p.2
      · rw [if_pos hs, if_pos hs, if_neg (by simp [h p (by simp) hs])]
        split <;> rfl
      · rw [if_neg hs, if_neg hs]
    simp only [varsIn, hp, ih (fun q hq => h q (by simp [hq])), List.map_cons]

lemma varOut_fst (w : ℕ × ℕ) (p : String × Entry V) : (varOut w p).1 = p.1 := by
  unfold varOut; split
  · split <;> rfl
  · rfl

lemma coordIn_fst (w : Option (ℕ × ℕ)) (p : String × Entry V) : (coordIn w p).1 = p.1 := by
  unfold coordIn; split <;> rfl

lemma varOut_window (sz : String → ℕ) (s : ℕ × ℕ) (p : String × Entry V) (l : List String) (hd : p.2.dims = some l) (hn : l.Nodup)
    (hs : p.2.arr.shape = l.map sz) (hf : "state" ∈ dimsOf p.2 → (dimsOf p.2).head? = some "state") (hw : s.1 ≤ s.2) (hw2 : s.2 ≤ sz "state")
    (hsw : ¬ StateWeight p) : Window (offS s) (sizeS sz s) p.2 (varOut s p).2 := by
  have hdo : dimsOf p.2 = l := by simp [dimsOf, hd]
  unfold varOut
  by_cases hst : "state" ∈ dimsOf p.2
  · rw [if_pos hst, if_neg (show ¬ (p.1 = "weight" ∧ dimsOf p.2 = ["state"]) from hsw)]
    have hh := hf hst
    rw [hdo] at hh
    cases l with
    | nil => simp at hh
    | cons c r =>
      simp at hh; subst hh
      simp only [List.nodup_cons] at hn
      exact window_slice0 sz s p.2 "state" r hd hs hn.1 hw hw2
  · rw [if_neg hst]
    rw [hdo] at hst
    have hne : ∀ c ∈ l, c ≠ "state" := by rintro c hc rfl; exact hst hc
    exact window_id _ _ p.2 l hd (by rw [hs]; exact List.map_congr_left (fun c hc => by simp [sizeS, hne c hc])) (fun c hc => by simp [offS, hne c hc])

lemma coordIn_window (sz : String → ℕ) (s : ℕ × ℕ) (p : String × Entry V) (hd : p.2.dims = some [p.1]) (hs : p.2.arr.shape = [sz p.1])
    (hw : s.1 ≤ s.2) (hw2 : s.2 ≤ sz "state") : Window (offS s) (sizeS sz s) p.2 (coordIn (some s) p).2 := by
  unfold coordIn
  split
  · rename_i h
    rw [h] at hd hs
    simp only [sliceOpt]
    exact window_slice0 sz s p.2 "state" [] hd (by simpa using hs) (by simp) hw hw2
  · rename_i h
    exact window_id _ _ p.2 [p.1] hd (by simp [hs, sizeS, h]) (by simp [offS, h])

/-- the entries before the callback -/
def cutEntries (ds : DS V) (s : ℕ × ℕ) : List (String × Entry V) := ds.coords.map (coordIn (some s)) ++ ds.vars.map (varOut s)

lemma cut_keys (ds : DS V) (s : ℕ × ℕ) : (cutEntries ds s).map Prod.fst = (ds.coords ++ ds.vars).map Prod.fst := by
  simp only [cutEntries, List.map_append, List.map_map]
  congr 1
  · exact List.map_congr_left (fun p _ => coordIn_fst _ p)
  · exact List.map_congr_left (fun p _ => varOut_fst _ p)

lemma cut_mem (sz : String → ℕ) (ds : DS V) (hds : DSOk sz ds) (s : ℕ × ℕ) (hw : s.1 ≤ s.2) (hw2 : s.2 ≤ sz "state") (q : String × Entry V) (hq : q ∈ cutEntries ds s) :
    ∃ p ∈ ds.coords ++ ds.vars, q.1 = p.1 ∧
      ((¬ StateWeight p ∨ p ∈ ds.coords) ∧ Window (offS s) (sizeS sz s) p.2 q.2 ∨
       StateWeight p ∧ p ∈ ds.vars ∧ q.2 = ⟨addAxis (slice0 p.2.arr s), some ["state", "turbine"]⟩) := by
  rcases List.mem_append.1 hq with hq | hq
  · obtain ⟨p, hp, rfl⟩ := List.mem_map.1 hq
    obtain ⟨l, h1, _, h3⟩ := hds.fit p (by simp [hp])
    have hc := hds.coord p hp
    rw [hc] at h1
    simp at h1; subst h1
    exact ⟨p, by simp [hp], coordIn_fst _ p, Or.inl ⟨Or.inr hp, coordIn_window sz s p hc (by simpa using h3) hw hw2⟩⟩
  · obtain ⟨p, hp, rfl⟩ := List.mem_map.1 hq
    refine ⟨p, by simp [hp], varOut_fst _ p, ?_⟩
    obtain ⟨l, h1, h2, h3⟩ := hds.fit p (by simp [hp])
    by_cases hsw : StateWeight p
    · right
      refine ⟨hsw, hp, ?_⟩
      obtain ⟨ha, hb⟩ := hsw
      unfold varOut
      rw [if_pos (by rw [hb]; simp), if_pos ⟨ha, hb⟩]
    · left
      exact ⟨Or.inl hsw, varOut_window sz s p l h1 h2 h3 (hds.first p hp) hw hw2 hsw⟩

lemma cut_of (sz : String → ℕ) (ds : DS V) (hds : DSOk sz ds) (s : ℕ × ℕ) (hw : s.1 ≤ s.2) (hw2 : s.2 ≤ sz "state") (p : String × Entry V) (hp : p ∈ ds.coords ++ ds.vars)
    (hsw : ¬ StateWeight p) : ∃ e', (p.1, e') ∈ cutEntries ds s ∧ Window (offS s) (sizeS sz s) p.2 e' := by
  obtain ⟨l, h1, h2, h3⟩ := hds.fit p hp
  rcases List.mem_append.1 hp with hp | hp
  · have hc := hds.coord p hp
    rw [hc] at h1
    simp at h1; subst h1
    refine ⟨(coordIn (some s) p).2, ?_, coordIn_window sz s p hc (by simpa using h3) hw hw2⟩
    rw [cutEntries]
    apply List.mem_append_left
    refine List.mem_map.2 ⟨p, hp, ?_⟩
    rw [Prod.ext_iff]; exact ⟨coordIn_fst _ p, rfl⟩
  · refine ⟨(varOut s p).2, ?_, varOut_window sz s p l h1 h2 h3 (hds.first p hp) hw hw2 hsw⟩
    rw [cutEntries]
    apply List.mem_append_right
    refine List.mem_map.2 ⟨p, hp, ?_⟩
    rw [Prod.ext_iff]; exact ⟨varOut_fst _ p, rfl⟩

lemma window_good {off sz : String → ℕ} {e : Entry V} {q : String × Entry V} (h : Window off sz e q.2) : Good sz q := by
  obtain ⟨l, _, h2, h3, _⟩ := h
  exact ⟨l, h2, Or.inl h3⟩

lemma window_dims {off sz : String → ℕ} {e e' : Entry V} (h : Window off sz e e') : dimsOf e' = dimsOf e := by
  obtain ⟨l, h1, h2, _, _⟩ := h
  simp [dimsOf, h1, h2]

lemma nStates_spec (sz : String → ℕ) (ds : DS V) (hds : DSOk sz ds) :
    nStates ds.vars = (if ∃ p ∈ ds.vars, "state" ∈ dimsOf p.2 then some (sz "state") else none) := by
  unfold nStates
  by_cases h : ∃ p ∈ ds.vars, "state" ∈ dimsOf p.2
  · rw [if_pos h]
    have hne : ds.vars.filter (fun p => decide ("state" ∈ dimsOf p.2)) ≠ [] := by
      obtain ⟨p, hp, hs⟩ := h
      intro h0
      have : p ∈ ds.vars.filter (fun p => decide ("state" ∈ dimsOf p.2)) := by simp [hp, hs]
      rw [h0] at this; simp at this
    rw [List.getLast?_eq_getLast_of_ne_nil hne]
    have hm := List.getLast_mem hne
    rw [List.mem_filter] at hm
    obtain ⟨hm, hs⟩ := hm
    simp only [decide_eq_true_eq] at hs
    generalize (ds.vars.filter (fun p => decide ("state" ∈ dimsOf p.2))).getLast hne = q at hm hs ⊢
    obtain ⟨l, h1, _, h3⟩ := hds.fit _ (List.mem_append_right _ hm)
    have hh := hds.first _ hm hs
    simp only [dimsOf, h1, Option.getD_some] at hh
    simp only [Option.bind_some, h3]
    cases l with
    | nil => simp at hh
    | cons c r => simp at hh; subst hh; simp
  · rw [if_neg h]
    have : ds.vars.filter (fun p => decide ("state" ∈ dimsOf p.2)) = [] := by
      rw [List.filter_eq_nil_iff]
      intro p hp
      simp only [decide_eq_true_eq]
      exact fun hs => h ⟨p, hp, hs⟩
    rw [this]; rfl

lemma lookup_none_of {α : Type} (l : List (String × α)) (v : String) (h : v ∉ l.map Prod.fst) : l.lookup v = none := by
  cases hl : l.lookup v with
  | none => rfl
  | some e => exact absurd (List.mem_map.2 ⟨(v, e), mem_of_lookup l v e hl, rfl⟩) h

lemma key_none {α : Type} (l : List (String × α)) (v : String) (h : l.lookup v = none) (hk : (l.map Prod.fst).Nodup) : v ∉ l.map Prod.fst := by
  intro hm
  obtain ⟨p, hp, rfl⟩ := List.mem_map.1 hm
  rw [lookup_of_mem l hk p.1 p.2 hp] at h
  simp at h

/-- Model data of a chunk: the chunk is accepted, and every variable of the dataset is there, cut to the states of the chunk: the value at position `i` of the chunk is
the value at position `s.1 + i` of the dataset; the counter of the first state is `s.1`; and the states of the chunk carry their coordinate, or the positions. -/
theorem C68_model_chunk (coord : ℕ → V) (sz : String → ℕ) (ds : DS V) (hds : DSOk sz ds) (s : ℕ × ℕ) (hw : s.1 ≤ s.2) (hw2 : s.2 ≤ sz "state") :
    ∃ d, chunkModel coord ds s = .ok d ∧ d.i0 = some s.1 ∧
      (∀ p ∈ ds.coords ++ ds.vars, ¬ StateWeight p → ∃ e', d.entries.lookup p.1 = some e' ∧ Window (offS s) (sizeS sz s) p.2 e') ∧
      ("state" ∉ ds.coords.map Prod.fst → (∃ p ∈ ds.vars, "state" ∈ dimsOf p.2) →
        ∃ e, d.entries.lookup "state" = some e ∧ e.dims = some ["state"] ∧ e.arr.shape = [s.2 - s.1] ∧ ∀ i, e.arr.val [i] = coord (i + s.1)) := by
  have hvs := varsIn_ok s ds.vars hds.first
  have hkeys : ((cutEntries ds s).map Prod.fst).Nodup := by rw [cut_keys]; exact hds.nodup
  set es := addStates coord (some s) (nStates ds.vars) (cutEntries ds s) with hes
  have hes' : es = cutEntries ds s ∨ ((cutEntries ds s).lookup "state" = none ∧ (∃ p ∈ ds.vars, "state" ∈ dimsOf p.2) ∧
      es = cutEntries ds s ++ [("state", ⟨arangeIn coord (sz "state") s, some ["state"]⟩)]) := by
    rw [hes, nStates_spec sz ds hds]
    unfold addStates
    split
    · rename_i h1 h2 h3
      split_ifs at h3 with hex
      simp only [Option.some.injEq] at h2 h3
      subst h2; subst h3
      exact Or.inr ⟨h1, hex, rfl⟩
    · exact Or.inl rfl
  have hk : (es.map Prod.fst).Nodup := by
    rcases hes' with h | ⟨hn, _, h⟩
    · rw [h]; exact hkeys
    · rw [h]
      rw [List.map_append, List.nodup_append]
      refine ⟨hkeys, by simp, ?_⟩
      intro a ha b hb
      simp at hb; subst hb
      rintro rfl
      exact key_none _ _ hn hkeys ha
  have hgood : ∀ q ∈ es, Good (sizeS sz s) q := by
    have h0 : ∀ q ∈ cutEntries ds s, Good (sizeS sz s) q := by
      intro q hq
      obtain ⟨p, hp, hn, ⟨_, h⟩ | ⟨hsw, hpv, h⟩⟩ := cut_mem sz ds hds s hw hw2 q hq
      · exact window_good h
      · obtain ⟨l, h1, _, h3⟩ := hds.fit p hp
        have hl : l = ["state"] := by have := hsw.2; simpa [dimsOf, h1] using this
        subst hl
        refine ⟨["state", "turbine"], by rw [h], Or.inr ⟨hn.trans hsw.1, rfl, ?_⟩⟩
        rw [h]
        simp only [addAxis, slice0, h3, List.map_cons, List.map_nil, sizeS, if_true]
        rw [Nat.min_eq_left hw2, Nat.min_eq_left (hw.trans hw2)]
        rfl
    intro q hq
    rcases hes' with h | ⟨_, _, h⟩
    · rw [h] at hq; exact h0 q hq
    · rw [h] at hq
      rcases List.mem_append.1 hq with hq | hq
      · exact h0 q hq
      · simp at hq; subst hq
        refine ⟨["state"], rfl, Or.inl ?_⟩
        simp only [arangeIn, List.map_cons, List.map_nil, sizeS, if_true]
        rw [Nat.min_eq_left hw2, Nat.min_eq_left (hw.trans hw2)]
  obtain ⟨d, e1, e2, e3, e4, _⟩ := construct_good .model coord (sizeS sz s) es ["state"] (some s.1) hk hgood (fun _ _ => trivial) (by simp) (by simp)
  refine ⟨d, ?_, e2, ?_, ?_⟩
  · simp only [chunkModel, fromDataset, hvs]
    exact e1
  · intro p hp hsw
    obtain ⟨e', he, hwd⟩ := cut_of sz ds hds s hw hw2 p hp hsw
    refine ⟨e', e4 _ _ ?_, hwd⟩
    have hl := lookup_of_mem _ hkeys _ _ he
    rcases hes' with h | ⟨_, _, h⟩
    · rw [h]; exact hl
    · rw [h, List.lookup_append, hl]; rfl
  · intro hno hex
    have hl : (cutEntries ds s).lookup "state" = none := by
      apply lookup_none_of
      rw [cut_keys, List.map_append, List.mem_append]
      rintro (h | h)
      · exact hno h
      · obtain ⟨p, hp, h⟩ := List.mem_map.1 h
        exact (hds.names p hp).1 h
    refine ⟨⟨arangeIn coord (sz "state") s, some ["state"]⟩, e4 _ _ ?_, rfl, ?_, ?_⟩
    · rw [hes, nStates_spec sz ds hds, if_pos hex]
      simp only [addStates, hl]
      rw [List.lookup_append, hl]; simp [List.lookup]
    · simp only [arangeIn]
      rw [Nat.min_eq_left hw2, Nat.min_eq_left (hw.trans hw2)]
    · intro i
      simp only [arangeIn, List.headD_cons]
      rw [Nat.min_eq_left (hw.trans hw2)]

/-- the states of model data of a chunk: what the other containers take over -/
def HasStates (s : ℕ × ℕ) (m : Data V) : Prop := ∃ e, m.entries.lookup "state" = some e ∧ e.dims = some ["state"] ∧ e.arr.shape = [s.2 - s.1]

/-- Model data of a chunk has states if the dataset has. -/
theorem C68_model_states (coord : ℕ → V) (sz : String → ℕ) (ds : DS V) (hds : DSOk sz ds) (s : ℕ × ℕ) (hw : s.1 ≤ s.2) (hw2 : s.2 ≤ sz "state")
    (h : "state" ∈ ds.coords.map Prod.fst ∨ ∃ p ∈ ds.vars, "state" ∈ dimsOf p.2) : ∃ d, chunkModel coord ds s = .ok d ∧ HasStates s d := by
  obtain ⟨d, h1, _, h3, h4⟩ := C68_model_chunk coord sz ds hds s hw hw2
  refine ⟨d, h1, ?_⟩
  by_cases hc : "state" ∈ ds.coords.map Prod.fst
  · obtain ⟨p, hp, hps⟩ := List.mem_map.1 hc
    obtain ⟨e, he, l, a, b, c, _⟩ := h3 p (by simp [hp]) (by rintro ⟨h, _⟩; rw [hps] at h; simp at h)
    rw [hds.coord p hp, hps] at a
    simp at a; subst a
    rw [hps] at he
    exact ⟨e, he, b, by simpa [sizeS] using c⟩
  · obtain ⟨e, he, a, b, _⟩ := h4 hc (h.resolve_left hc)
    exact ⟨e, he, a, b⟩

/-- the entries with states -/
lemma withState_spec (m : Data V) (s : ℕ × ℕ) (hm : HasStates s m) (es : List (String × Entry V)) :
    ∃ es', withState m es = .ok es' ∧ ((es.lookup "state").isSome ∧ es' = es ∨
      es.lookup "state" = none ∧ ∃ e, m.entries.lookup "state" = some e ∧ e.dims = some ["state"] ∧ e.arr.shape = [s.2 - s.1] ∧ es' = es ++ [("state", e)]) := by
  obtain ⟨e, h1, h2, h3⟩ := hm
  unfold withState
  split
  · rename_i x hx
    exact ⟨es, rfl, Or.inl ⟨by rw [hx]; rfl, rfl⟩⟩
  · rename_i hx
    rw [h1]
    exact ⟨_, rfl, Or.inr ⟨hx, e, rfl, h2, h3, rfl⟩⟩

lemma nodup_append_one {α : Type} (l : List (String × α)) (v : String) (x : α) (hk : (l.map Prod.fst).Nodup) (h : l.lookup v = none) :
    ((l ++ [(v, x)]).map Prod.fst).Nodup := by
  rw [List.map_append, List.nodup_append]
  refine ⟨hk, by simp, ?_⟩
  intro a ha b hb
  simp at hb; subst hb
  rintro rfl
  exact key_none _ _ h hk ha

lemma fill_spec (nan : V) (shape : List ℕ) (dims ov : List String) (es : List (String × Entry V)) (hk : (es.map Prod.fst).Nodup) :
    ((fill nan shape dims ov es).map Prod.fst).Nodup ∧ (∀ q ∈ fill nan shape dims ov es, q ∈ es ∨ q.1 ∈ ov ∧ q.2 = ⟨⟨shape, fun _ => nan⟩, some dims⟩) ∧
    (∀ v e, es.lookup v = some e → (fill nan shape dims ov es).lookup v = some e) ∧
    (∀ o ∈ ov, es.lookup o = none → (fill nan shape dims ov es).lookup o = some ⟨⟨shape, fun _ => nan⟩, some dims⟩) := by
  have hnd : ((fill nan shape dims ov es).map Prod.fst).Nodup := by
    unfold fill
    rw [List.map_append, List.nodup_append]
    refine ⟨hk, ?_, ?_⟩
    · rw [List.map_map]
      have : ((ov.dedup.filter (fun o => (es.lookup o).isNone)).map (Prod.fst ∘ fun o => (o, (⟨⟨shape, fun _ => nan⟩, some dims⟩ : Entry V)))) =
          ov.dedup.filter (fun o => (es.lookup o).isNone) := by simp [Function.comp_def]
      rw [this]
      exact (List.nodup_dedup ov).filter _
    · intro a ha b hb
      simp only [List.map_map, List.mem_map, List.mem_filter, Function.comp] at hb
      obtain ⟨o, ⟨_, h2⟩, rfl⟩ := hb
      rintro rfl
      exact key_none es a (by simpa using h2) hk ha
  refine ⟨hnd, ?_, ?_, ?_⟩
  · intro q hq
    rcases List.mem_append.1 hq with hq | hq
    · exact Or.inl hq
    · simp only [List.mem_map, List.mem_filter, List.mem_dedup] at hq
      obtain ⟨o, ⟨h1, _⟩, rfl⟩ := hq
      exact Or.inr ⟨h1, rfl⟩
  · intro v e h
    unfold fill
    rw [List.lookup_append, h]; rfl
  · intro o ho hn
    apply lookup_of_mem _ hnd
    apply List.mem_append_right
    simp only [List.mem_map, List.mem_filter, List.mem_dedup]
    exact ⟨o, ⟨ho, by rw [hn]; rfl⟩, rfl⟩

/-- Farm data as the algorithms produce it: variables have dimensions (state, turbine, ...), except turbine names and weights. -/
def FarmVars (ds : DS V) : Prop := ∀ p ∈ ds.vars, p.1 = "tname" ∨ p.1 = "weight" ∨ ["state", "turbine"] <+: dimsOf p.2

/-- Farm data of a chunk, with the model data of the same chunk: it is accepted; every variable of the dataset is there, cut to the states of the chunk; output
variables that are not there yet are filled with not-a-number, for all states of the chunk and all turbines; and weights per state are there for one turbine. -/
theorem C68_farm_chunk (coord : ℕ → V) (nan : V) (sz : String → ℕ) (ds : DS V) (hds : DSOk sz ds) (hfv : FarmVars ds) (s : ℕ × ℕ) (hw : s.1 ≤ s.2)
    (hw2 : s.2 ≤ sz "state") (m : Data V) (hm : HasStates s m) (ov : Option (List String))
    (ht : (∃ p ∈ ds.coords ++ ds.vars, "turbine" ∈ dimsOf p.2) ∨ ∃ o ∈ ov.getD [], o ∉ (ds.coords ++ ds.vars).map Prod.fst ∧ o ≠ "state") :
    ∃ d, chunkFarm coord nan m ds (sz "turbine") s ov = .ok d ∧ d.i0 = some s.1 ∧
      (∀ p ∈ ds.coords ++ ds.vars, ¬ StateWeight p → ∃ e', d.entries.lookup p.1 = some e' ∧ Window (offS s) (sizeS sz s) p.2 e') ∧
      (∀ p ∈ ds.vars, StateWeight p → ∃ e', d.entries.lookup p.1 = some e' ∧ e'.dims = some ["state", "turbine"] ∧ e'.arr.shape = [s.2 - s.1, 1] ∧
        ∀ i j, e'.arr.val [i, j] = p.2.arr.val [i + s.1]) ∧
      ("state" ∉ ds.coords.map Prod.fst → d.entries.lookup "state" = m.entries.lookup "state") ∧
      (∀ o ∈ ov.getD [], o ∉ (ds.coords ++ ds.vars).map Prod.fst → o ≠ "state" →
        d.entries.lookup o = some ⟨⟨[s.2 - s.1, sz "turbine"], fun _ => nan⟩, some ["state", "turbine"]⟩) := by
  have hvs := varsIn_ok s ds.vars hds.first
  have hkeys : ((cutEntries ds s).map Prod.fst).Nodup := by rw [cut_keys]; exact hds.nodup
  obtain ⟨es1, hws, hes1⟩ := withState_spec m s hm (cutEntries ds s)
  have hk1 : (es1.map Prod.fst).Nodup := by
    rcases hes1 with ⟨_, rfl⟩ | ⟨hn, e, _, _, _, rfl⟩
    · exact hkeys
    · exact nodup_append_one _ _ _ hkeys hn
  have hst1 : (es1.lookup "state").isSome := by
    rcases hes1 with ⟨h, rfl⟩ | ⟨hn, e, _, _, _, rfl⟩
    · exact h
    · rw [List.lookup_append, hn]; simp [List.lookup]
  have keep1 : ∀ v e, (cutEntries ds s).lookup v = some e → es1.lookup v = some e := by
    intro v e h
    rcases hes1 with ⟨_, rfl⟩ | ⟨hn, e', _, _, _, rfl⟩
    · exact h
    · rw [List.lookup_append, h]; rfl
  have hsw : ∀ p ∈ ds.vars, StateWeight p → slice0 p.2.arr s = ⟨[s.2 - s.1], (slice0 p.2.arr s).val⟩ ∧ ∀ i, (slice0 p.2.arr s).val [i] = p.2.arr.val [i + s.1] := by
    intro p hp hsw
    obtain ⟨l, h1, _, h3⟩ := hds.fit p (by simp [hp])
    have hl : l = ["state"] := by have := hsw.2; simpa [dimsOf, h1] using this
    subst hl
    have hms : min s.1 (sz "state") = s.1 := Nat.min_eq_left (hw.trans hw2)
    have hms2 : min s.2 (sz "state") = s.2 := Nat.min_eq_left hw2
    refine ⟨?_, ?_⟩
    · simp only [slice0, h3, List.map_cons, List.map_nil, hms, hms2]
    · intro i
      simp only [slice0, h3, List.map_cons, List.map_nil, hms]
  have good1 : ∀ q ∈ es1, Good (sizeS sz s) q ∧ ClassOk .farm (sizeS sz s) q := by
    have h0 : ∀ q ∈ cutEntries ds s, Good (sizeS sz s) q ∧ ClassOk .farm (sizeS sz s) q := by
      intro q hq
      obtain ⟨p, hp, hn, ⟨_, h⟩ | ⟨hsw', hpv, h⟩⟩ := cut_mem sz ds hds s hw hw2 q hq
      · refine ⟨window_good h, ?_⟩
        simp only [ClassOk, window_dims h, hn]
        rcases List.mem_append.1 hp with hp | hp
        · left
          simp [dimsOf, hds.coord p hp]
        · right; exact hfv p hp
      · refine ⟨⟨["state", "turbine"], by rw [h], Or.inr ⟨hn.trans hsw'.1, rfl, ?_⟩⟩, Or.inr (Or.inr (Or.inl (hn.trans hsw'.1)))⟩
        rw [h, (hsw p hpv hsw').1]
        simp [addAxis, sizeS]
    intro q hq
    rcases hes1 with ⟨_, rfl⟩ | ⟨hn, e, he1, he2, he3, rfl⟩
    · exact h0 q hq
    · rcases List.mem_append.1 hq with hq | hq
      · exact h0 q hq
      · simp at hq; subst hq
        refine ⟨⟨["state"], he2, Or.inl (by simp [he3, sizeS])⟩, Or.inl ?_⟩
        simp [dimsOf, he2]
  -- the entries after the callback
  obtain ⟨es2, hcb, hk2, mem2, keep2, new2⟩ : ∃ es2, cbFarm nan m (sz "turbine") s ov (cutEntries ds s) = .ok es2 ∧ (es2.map Prod.fst).Nodup ∧
      (∀ q ∈ es2, q ∈ es1 ∨ q.1 ∈ ov.getD [] ∧ q.2 = ⟨⟨[s.2 - s.1, sz "turbine"], fun _ => nan⟩, some ["state", "turbine"]⟩) ∧
      (∀ v e, es1.lookup v = some e → es2.lookup v = some e) ∧
      (∀ o ∈ ov.getD [], es1.lookup o = none → es2.lookup o = some ⟨⟨[s.2 - s.1, sz "turbine"], fun _ => nan⟩, some ["state", "turbine"]⟩) := by
    cases ov with
    | none =>
      refine ⟨es1, by simp only [cbFarm, hws], hk1, fun q hq => Or.inl hq, fun v e h => h, by simp⟩
    | some ov =>
      obtain ⟨a, b, c, d⟩ := fill_spec nan [s.2 - s.1, sz "turbine"] ["state", "turbine"] ov es1 hk1
      exact ⟨_, by simp only [cbFarm, hws], a, b, c, d⟩
  have good2 : ∀ q ∈ es2, Good (sizeS sz s) q ∧ ClassOk .farm (sizeS sz s) q := by
    intro q hq
    rcases mem2 q hq with h | ⟨_, h⟩
    · exact good1 q h
    · refine ⟨⟨["state", "turbine"], by rw [h], Or.inl (by rw [h]; simp [sizeS])⟩, Or.inr (Or.inr (Or.inr ?_))⟩
      rw [h]; simp [dimsOf]
  have hnone : ∀ o, o ∉ (ds.coords ++ ds.vars).map Prod.fst → o ≠ "state" → es1.lookup o = none := by
    intro o h1 h2
    apply lookup_none_of
    have hc : o ∉ (cutEntries ds s).map Prod.fst := by rw [cut_keys]; exact h1
    rcases hes1 with ⟨_, rfl⟩ | ⟨_, e, _, _, _, rfl⟩
    · exact hc
    · rw [List.map_append, List.mem_append]
      rintro (h | h)
      · exact hc h
      · simp at h; exact h2 h
  obtain ⟨d, e1, e2, e3, e4, _⟩ := construct_good .farm coord (sizeS sz s) es2 ["state"] (some s.1) hk2 (fun q hq => (good2 q hq).1) (fun q hq => (good2 q hq).2)
    (by
      intro _ x hx
      simp only [List.mem_cons, List.not_mem_nil, or_false] at hx
      rcases hx with rfl | rfl
      · obtain ⟨e, he⟩ := Option.isSome_iff_exists.1 hst1
        have hmem := mem_of_lookup _ _ _ (keep2 _ _ he)
        refine ⟨_, hmem, ?_⟩
        rcases hes1 with ⟨_, rfl⟩ | ⟨_, e', _, he2, _, rfl⟩
        · obtain ⟨p, hp, hn, ⟨_, h⟩ | ⟨hsw', _, h⟩⟩ := cut_mem sz ds hds s hw hw2 _ (mem_of_lookup _ _ _ he)
          · simp only at hn h ⊢
            rw [window_dims h]
            rcases List.mem_append.1 hp with hp | hp
            · simp [dimsOf, hds.coord p hp, hn]
            · exact absurd hn.symm (hds.names p hp).1
          · simp only at hn
            have := hsw'.1
            rw [← hn] at this; simp at this
        · have : e = e' := by
            rw [List.lookup_append] at he
            rename_i hn _ _
            rw [hn] at he
            simpa [List.lookup] using he.symm
          subst this
          simp [dimsOf, he2]
      · rcases ht with ⟨p, hp, hpt⟩ | ⟨o, ho, ho1, ho2⟩
        · by_cases hsw' : StateWeight p
          · rw [hsw'.2] at hpt; simp at hpt
          · obtain ⟨e', he, hwd⟩ := cut_of sz ds hds s hw hw2 p hp hsw'
            refine ⟨(p.1, e'), mem_of_lookup _ _ _ (keep2 _ _ (keep1 _ _ (lookup_of_mem _ hkeys _ _ he))), ?_⟩
            rw [window_dims hwd]; exact hpt
        · exact ⟨_, mem_of_lookup _ _ _ (new2 o ho (hnone o ho1 ho2)), by simp [dimsOf]⟩) (by simp)
  refine ⟨d, ?_, e2, ?_, ?_, ?_, ?_⟩
  · have hadd : addStates coord (some s) (nStates ds.vars) es2 = es2 := by
      obtain ⟨e, he⟩ := Option.isSome_iff_exists.1 hst1
      unfold addStates
      rw [keep2 _ _ he]
    simp only [chunkFarm, fromDataset, hvs]
    rw [show ds.coords.map (coordIn (some s)) ++ ds.vars.map (varOut s) = cutEntries ds s from rfl, hcb]
    simp only [hadd]
    exact e1
  · intro p hp hnsw
    obtain ⟨e', he, hwd⟩ := cut_of sz ds hds s hw hw2 p hp hnsw
    exact ⟨e', e4 _ _ (keep2 _ _ (keep1 _ _ (lookup_of_mem _ hkeys _ _ he))), hwd⟩
  · intro p hp hp'
    have hmem : (p.1, (⟨addAxis (slice0 p.2.arr s), some ["state", "turbine"]⟩ : Entry V)) ∈ cutEntries ds s := by
      apply List.mem_append_right
      refine List.mem_map.2 ⟨p, hp, ?_⟩
      unfold varOut
      rw [if_pos (by rw [hp'.2]; simp), if_pos (show p.1 = "weight" ∧ dimsOf p.2 = ["state"] from hp')]
    refine ⟨_, e4 _ _ (keep2 _ _ (keep1 _ _ (lookup_of_mem _ hkeys _ _ hmem))), rfl, ?_, ?_⟩
    · rw [(hsw p hp hp').1]; rfl
    · intro i j
      exact (hsw p hp hp').2 i
  · intro hno
    have hl : (cutEntries ds s).lookup "state" = none := by
      apply lookup_none_of
      rw [cut_keys, List.map_append, List.mem_append]
      rintro (h | h)
      · exact hno h
      · obtain ⟨p, hp, h⟩ := List.mem_map.1 h
        exact (hds.names p hp).1 h
    rcases hes1 with ⟨h, rfl⟩ | ⟨_, e, he, _, _, rfl⟩
    · rw [hl] at h; simp at h
    · rw [he]
      apply e4
      apply keep2
      rw [List.lookup_append, hl]; simp [List.lookup]
  · intro o ho ho1 ho2
    exact e4 _ _ (new2 o ho (hnone o ho1 ho2))

/-- Point data as it is made for calculations at points: points and weights, and variables with dimensions (state, target, point, ...). -/
structure PointVars (sz : String → ℕ) (ds : DS V) : Prop where
  points : ∃ p ∈ ds.vars, p.1 = "targets"
  weights : ∃ p ∈ ds.vars, p.1 = "tpoint_weights"
  form : ∀ p ∈ ds.vars, (p.1 = "targets" ∧ dimsOf p.2 = ["state", "target", "target_point", "xyh"]) ∨ (p.1 = "tpoint_weights" ∧ dimsOf p.2 = ["target_point"]) ∨
    (p.1 ≠ "targets" ∧ p.1 ≠ "tpoint_weights" ∧ ["state", "target", "target_point"] <+: dimsOf p.2)
  coords : ∀ p ∈ ds.coords, p.1 ≠ "targets" ∧ p.1 ≠ "tpoint_weights"
  three : sz "xyh" = 3
  one : sz "target_point" = 1

/-- what becomes of an entry by the selection of targets -/
def targetOut (w : ℕ × ℕ) (p : String × Entry V) : String × Entry V :=
  if "target" ∈ dimsOf p.2 then
    if dimsOf p.2 = ["target"] then (p.1, ⟨slice0 p.2.arr w, p.2.dims⟩) else (p.1, ⟨slice1 p.2.arr w, p.2.dims⟩)
  else p

/-- the form of an entry that can be cut along the targets -/
def TargetForm (p : String × Entry V) : Prop :=
  "target" ∉ dimsOf p.2 ∨ dimsOf p.2 = ["target"] ∨ ["state", "target", "target_point"] <+: dimsOf p.2

lemma targetsIn_ok (w : ℕ × ℕ) (l : List (String × Entry V)) (h : ∀ p ∈ l, TargetForm p) : targetsIn w l = .ok (l.map (targetOut w)) := by
  induction l with
  | nil => rfl
  | cons p l ih =>
    have hp : targetIn w p = .ok (targetOut w p) := by
      unfold targetIn targetOut
      by_cases hs : "target" ∈ dimsOf p.2
      · rw [if_pos hs, if_pos hs]
        by_cases h1 : dimsOf p.2 = ["target"]
        · rw [if_pos h1, if_pos h1]
        · rw [if_neg h1, if_neg h1]
          rcases h p (by simp) with hf | hf | ⟨r, hf⟩
          · exact absurd hs hf
          · exact absurd hf h1
          · rw [if_neg]
            rw [← hf]; simp
      · rw [if_neg hs, if_neg hs]
    simp only [targetsIn, hp, ih (fun q hq => h q (by simp [hq])), List.map_cons]

lemma targetOut_fst (w : ℕ × ℕ) (p : String × Entry V) : (targetOut w p).1 = p.1 := by
  unfold targetOut; split
  · split <;> rfl
  · rfl

lemma targetOut_window (z : String → ℕ) (t : ℕ × ℕ) (q : String × Entry V) (l : List String) (hd : q.2.dims = some l) (hn : l.Nodup) (hs : q.2.arr.shape = l.map z)
    (hf : TargetForm q) (hw : t.1 ≤ t.2) (hw2 : t.2 ≤ z "target") :
    Window (fun x => if x = "target" then t.1 else 0) (fun x => if x = "target" then t.2 - t.1 else z x) q.2 (targetOut t q).2 := by
  have hdo : dimsOf q.2 = l := by simp [dimsOf, hd]
  unfold targetOut
  by_cases hst : "target" ∈ dimsOf q.2
  · rw [if_pos hst]
    by_cases h1 : dimsOf q.2 = ["target"]
    · rw [if_pos h1]
      rw [hdo] at h1; subst h1
      exact window_slice0 z t q.2 "target" [] hd hs (by simp) hw hw2
    · rw [if_neg h1]
      rcases hf with hf | hf | ⟨r, hf⟩
      · exact absurd hst hf
      · exact absurd hf h1
      · rw [hdo] at hf; subst hf
        refine window_slice1 z t q.2 "state" "target" ("target_point" :: r) hd hs (by decide) ?_ hw hw2
        simp only [List.cons_append, List.nil_append, List.nodup_cons] at hn
        exact hn.2.1
  · rw [if_neg hst]
    rw [hdo] at hst
    have hne : ∀ c ∈ l, c ≠ "target" := by rintro c hc rfl; exact hst hc
    exact window_id _ _ q.2 l hd (by rw [hs]; exact List.map_congr_left (fun c hc => by simp [hne c hc])) (fun c hc => by simp [hne c hc])

lemma zip_lookup (sz : String → ℕ) (l : List String) (c : String) : (l.zip (l.map sz)).lookup c = if c ∈ l then some (sz c) else none := by
  induction l with
  | nil => simp
  | cons a l ih =>
    simp only [List.map_cons, List.zip_cons_cons]
    by_cases h : c = a
    · subst h; simp
    · simp only [List.lookup, beq_eq_false_iff_ne.2 h, ih, List.mem_cons, h, false_or]

lemma targetSize_spec (sz : String → ℕ) (ds : DS V) (hds : DSOk sz ds) (h : ∃ p ∈ ds.coords ++ ds.vars, "target" ∈ dimsOf p.2) : targetSize ds = some (sz "target") := by
  unfold targetSize
  have key : ∀ L : List (String × Entry V), (∀ p ∈ L, ∃ l, p.2.dims = some l ∧ p.2.arr.shape = l.map sz) → (∃ p ∈ L, "target" ∈ dimsOf p.2) →
      L.findSome? (fun p => ((dimsOf p.2).zip p.2.arr.shape).lookup "target") = some (sz "target") := by
    intro L
    induction L with
    | nil => intro _ h; simp at h
    | cons p L ih =>
      intro hL hex
      obtain ⟨l, h1, h2⟩ := hL p (by simp)
      have hdo : dimsOf p.2 = l := by simp [dimsOf, h1]
      rw [List.findSome?_cons]
      rw [hdo, h2, zip_lookup]
      by_cases hm : "target" ∈ l
      · rw [if_pos hm]
      · rw [if_neg hm]
        apply ih (fun q hq => hL q (by simp [hq]))
        obtain ⟨q, hq, hqt⟩ := hex
        rcases List.mem_cons.1 hq with rfl | hq
        · rw [hdo] at hqt; exact absurd hqt hm
        · exact ⟨q, hq, hqt⟩
  exact key _ (fun p hp => by obtain ⟨l, a, _, b⟩ := hds.fit p hp; exact ⟨l, a, b⟩) h

lemma offset_eq (s t : ℕ × ℕ) (c : String) : offS s c + (if c = "target" then t.1 else 0) = offset s t c := by
  unfold offS offset
  by_cases h : c = "state"
  · subst h; simp
  · simp [h]

lemma chunkSize_eq (sz : String → ℕ) (s t : ℕ × ℕ) : (fun c => if c = "target" then t.2 - t.1 else sizeS sz s c) = chunkSize sz s t := by
  funext c
  unfold sizeS chunkSize
  by_cases h : c = "state"
  · subst h; simp
  · simp [h]

/-- Target data of a chunk, with the model data of the same chunk of states: it is accepted; every variable of the dataset is there, cut to the states and the targets of
the chunk; output variables that are not there yet are filled with not-a-number for all states and targets of the chunk; and without coordinate of the targets, these
are counted by their positions in the dataset. -/
theorem C68_points_chunk (coord : ℕ → V) (nan : V) (sz : String → ℕ) (ds : DS V) (hds : DSOk sz ds) (hpv : PointVars sz ds) (s t : ℕ × ℕ) (hw : s.1 ≤ s.2)
    (hw2 : s.2 ≤ sz "state") (hv : t.1 ≤ t.2) (hv2 : t.2 ≤ sz "target") (m : Data V) (hm : HasStates s m) (ov : List String) :
    ∃ d, chunkPoints coord nan m ds s t ov = .ok d ∧ d.i0 = some s.1 ∧
      (∀ p ∈ ds.coords ++ ds.vars, ∃ e', d.entries.lookup p.1 = some e' ∧ Window (offset s t) (chunkSize sz s t) p.2 e') ∧
      ("state" ∉ ds.coords.map Prod.fst → d.entries.lookup "state" = m.entries.lookup "state") ∧
      ("target" ∉ ds.coords.map Prod.fst → ∃ e, d.entries.lookup "target" = some e ∧ e.dims = some ["target"] ∧ e.arr.shape = [t.2 - t.1] ∧
        ∀ j, e.arr.val [j] = coord (j + t.1)) ∧
      (∀ o ∈ ov, o ∉ (ds.coords ++ ds.vars).map Prod.fst → o ≠ "state" → o ≠ "target" →
        d.entries.lookup o = some ⟨⟨[s.2 - s.1, t.2 - t.1, 1], fun _ => nan⟩, some ["state", "target", "target_point"]⟩) ∧
      nTargets d = some (t.2 - t.1) ∧ nTPoints d = some 1 ∧ d.size "state" = some (s.2 - s.1) := by
  have hvs := varsIn_ok s ds.vars hds.first
  have hkeys : ((cutEntries ds s).map Prod.fst).Nodup := by rw [cut_keys]; exact hds.nodup
  have hnosw : ∀ p ∈ ds.coords ++ ds.vars, ¬ StateWeight p := by
    rintro p hp ⟨h1, h2⟩
    rcases List.mem_append.1 hp with hp | hp
    · have h3 := hds.coord p hp
      simp [dimsOf, h3] at h2
      rw [h1] at h2; simp at h2
    · rcases hpv.form p hp with ⟨h, _⟩ | ⟨h, _⟩ | ⟨_, _, h⟩
      · rw [h1] at h; simp at h
      · rw [h1] at h; simp at h
      · rw [h2] at h
        have := h.length_le
        simp at this
  obtain ⟨pt, hpt, hptn⟩ := hpv.points
  have hptd : dimsOf pt.2 = ["state", "target", "target_point", "xyh"] := by
    rcases hpv.form pt hpt with ⟨_, h⟩ | ⟨h, _⟩ | ⟨h, _⟩
    · exact h
    · rw [hptn] at h; simp at h
    · exact absurd hptn h
  obtain ⟨pw, hpw, hpwn⟩ := hpv.weights
  have hpwd : dimsOf pw.2 = ["target_point"] := by
    rcases hpv.form pw hpw with ⟨h, _⟩ | ⟨_, h⟩ | ⟨_, h, _⟩
    · rw [hpwn] at h; simp at h
    · exact h
    · exact absurd hpwn h
  have hts : targetSize ds = some (sz "target") := targetSize_spec sz ds hds ⟨pt, by simp [hpt], by simp [hptd]⟩
  -- facts about the cut entries
  have hcut : ∀ q ∈ cutEntries ds s, ∃ p ∈ ds.coords ++ ds.vars, q.1 = p.1 ∧ Window (offS s) (sizeS sz s) p.2 q.2 := by
    intro q hq
    obtain ⟨p, hp, hn, ⟨_, h⟩ | ⟨h, _⟩⟩ := cut_mem sz ds hds s hw hw2 q hq
    · exact ⟨p, hp, hn, h⟩
    · exact absurd h (hnosw p hp)
  have hform : ∀ p ∈ ds.coords ++ ds.vars, "target" ∉ dimsOf p.2 ∨ dimsOf p.2 = ["target"] ∨ ["state", "target", "target_point"] <+: dimsOf p.2 := by
    intro p hp
    rcases List.mem_append.1 hp with hp | hp
    · have : dimsOf p.2 = [p.1] := by simp [dimsOf, hds.coord p hp]
      rw [this]
      by_cases h : p.1 = "target"
      · right; left; rw [h]
      · left; simpa using fun h' => h h'.symm
    · rcases hpv.form p hp with ⟨_, h⟩ | ⟨_, h⟩ | ⟨_, _, h⟩
      · right; right; rw [h]; exact ⟨["xyh"], rfl⟩
      · left; rw [h]; simp
      · right; right; exact h
  -- entries with the coordinate of the targets
  obtain ⟨E0, hE0, hE0k, hE0m, hE0keep, hE0t⟩ : ∃ E0 : List (String × Entry V), cbTargets coord ds t (cutEntries ds s) = targetsIn t E0 ∧ (E0.map Prod.fst).Nodup ∧
      (∀ q ∈ E0, q ∈ cutEntries ds s ∨ q = ("target", ⟨⟨[sz "target"], fun idx => coord (idx.headD 0)⟩, some ["target"]⟩)) ∧
      (∀ v e, (cutEntries ds s).lookup v = some e → E0.lookup v = some e) ∧
      ("target" ∉ ds.coords.map Prod.fst → E0.lookup "target" = some ⟨⟨[sz "target"], fun idx => coord (idx.headD 0)⟩, some ["target"]⟩) := by
    unfold cbTargets
    split
    · rename_i e he
      refine ⟨cutEntries ds s, rfl, hkeys, fun q hq => Or.inl hq, fun v e h => h, ?_⟩
      intro hno
      have : "target" ∈ (cutEntries ds s).map Prod.fst := List.mem_map.2 ⟨_, mem_of_lookup _ _ _ he, rfl⟩
      rw [cut_keys, List.map_append, List.mem_append] at this
      rcases this with h | h
      · exact absurd h hno
      · obtain ⟨p, hp, h⟩ := List.mem_map.1 h
        exact absurd h (hds.names p hp).2
    · rename_i hn
      rw [hts]
      refine ⟨_, rfl, nodup_append_one _ _ _ hkeys hn, ?_, ?_, ?_⟩
      · intro q hq
        rcases List.mem_append.1 hq with hq | hq
        · exact Or.inl hq
        · right; simpa using hq
      · intro v e h
        rw [List.lookup_append, h]; rfl
      · intro _
        rw [List.lookup_append, hn]; simp [List.lookup]
  have hE0f : ∀ q ∈ E0, TargetForm q := by
    intro q hq
    rcases hE0m q hq with h | rfl
    · obtain ⟨p, hp, _, hwd⟩ := hcut q h
      unfold TargetForm
      rw [window_dims hwd]
      exact hform p hp
    · right; left; rfl
  have hti := targetsIn_ok t E0 hE0f
  set E1 := E0.map (targetOut t) with hE1
  have hE1k : (E1.map Prod.fst).Nodup := by
    rw [hE1, List.map_map]
    have : E0.map (Prod.fst ∘ targetOut t) = E0.map Prod.fst := List.map_congr_left (fun p _ => targetOut_fst t p)
    rw [this]; exact hE0k
  have hwin : ∀ p q : String × Entry V, p ∈ ds.coords ++ ds.vars → q ∈ cutEntries ds s → Window (offS s) (sizeS sz s) p.2 q.2 →
      Window (offset s t) (chunkSize sz s t) p.2 (targetOut t q).2 := by
    intro p q hp hq hwd
    obtain ⟨l, h1, h2, h3⟩ := hds.fit p hp
    obtain ⟨l', a1, a2, a3, _⟩ := id hwd
    rw [h1] at a1
    simp at a1; subst a1
    have hTF : TargetForm q := by
      unfold TargetForm
      rw [window_dims hwd]
      exact hform p hp
    have h4 := hwd.trans (targetOut_window (sizeS sz s) t q l a2 h2 a3 hTF hv (by simpa [sizeS] using hv2))
    rw [chunkSize_eq] at h4
    exact window_off h4 (offset_eq s t)
  have hE1t : targetOut t ("target", (⟨⟨[sz "target"], fun idx => coord (idx.headD 0)⟩, some ["target"]⟩ : Entry V)) =
      ("target", ⟨⟨[t.2 - t.1], (slice0 (⟨[sz "target"], fun idx => coord (idx.headD 0)⟩ : Arr V) t).val⟩, some ["target"]⟩) := by
    have hms : min t.1 (sz "target") = t.1 := Nat.min_eq_left (hv.trans hv2)
    have hms2 : min t.2 (sz "target") = t.2 := Nat.min_eq_left hv2
    simp [targetOut, dimsOf, slice0, hms, hms2]
  have hE1m : ∀ q ∈ E1, (∃ p ∈ ds.coords ++ ds.vars, q.1 = p.1 ∧ Window (offset s t) (chunkSize sz s t) p.2 q.2) ∨
      (q.1 = "target" ∧ q.2.dims = some ["target"] ∧ q.2.arr.shape = [t.2 - t.1]) := by
    intro q hq
    obtain ⟨q0, hq0, rfl⟩ := List.mem_map.1 hq
    rcases hE0m q0 hq0 with h | rfl
    · left
      obtain ⟨p, hp, hn, hwd⟩ := hcut q0 h
      exact ⟨p, hp, (targetOut_fst t q0).trans hn, hwin p q0 hp h hwd⟩
    · right; rw [hE1t]; exact ⟨rfl, rfl, rfl⟩
  have hE1of : ∀ p ∈ ds.coords ++ ds.vars, ∃ e', E1.lookup p.1 = some e' ∧ Window (offset s t) (chunkSize sz s t) p.2 e' := by
    intro p hp
    obtain ⟨e', he, hwd⟩ := cut_of sz ds hds s hw hw2 p hp (hnosw p hp)
    refine ⟨(targetOut t (p.1, e')).2, ?_, hwin p (p.1, e') hp he hwd⟩
    apply lookup_of_mem _ hE1k
    refine List.mem_map.2 ⟨(p.1, e'), mem_of_lookup _ _ _ (hE0keep _ _ (lookup_of_mem _ hkeys _ _ he)), ?_⟩
    rw [Prod.ext_iff]; exact ⟨targetOut_fst t _, rfl⟩
  obtain ⟨es1, hws, hes1⟩ := withState_spec m s hm E1
  have hk1 : (es1.map Prod.fst).Nodup := by
    rcases hes1 with ⟨_, rfl⟩ | ⟨hn, e, _, _, _, rfl⟩
    · exact hE1k
    · exact nodup_append_one _ _ _ hE1k hn
  have hst1 : (es1.lookup "state").isSome := by
    rcases hes1 with ⟨h, rfl⟩ | ⟨hn, e, _, _, _, rfl⟩
    · exact h
    · rw [List.lookup_append, hn]; simp [List.lookup]
  have keep1 : ∀ v e, E1.lookup v = some e → es1.lookup v = some e := by
    intro v e h
    rcases hes1 with ⟨_, rfl⟩ | ⟨hn, e', _, _, _, rfl⟩
    · exact h
    · rw [List.lookup_append, h]; rfl
  have h3 : chunkSize sz s t "xyh" = 3 := by simp [chunkSize, hpv.three]
  have good1 : ∀ q ∈ es1, Good (chunkSize sz s t) q ∧ ClassOk .target (chunkSize sz s t) q := by
    have h0 : ∀ q ∈ E1, Good (chunkSize sz s t) q ∧ ClassOk .target (chunkSize sz s t) q := by
      intro q hq
      rcases hE1m q hq with ⟨p, hp, hn, hwd⟩ | ⟨a, b, c⟩
      · refine ⟨window_good hwd, ?_⟩
        simp only [ClassOk, window_dims hwd, hn, h3]
        rcases List.mem_append.1 hp with hp | hp
        · right; right
          refine ⟨(hpv.coords p hp).1, (hpv.coords p hp).2, Or.inl ?_⟩
          simp [dimsOf, hds.coord p hp]
        · rcases hpv.form p hp with ⟨a, b⟩ | ⟨a, b⟩ | ⟨a, b, c⟩
          · exact Or.inl ⟨a, b, trivial⟩
          · exact Or.inr (Or.inl ⟨a, b⟩)
          · exact Or.inr (Or.inr ⟨a, b, Or.inr c⟩)
      · refine ⟨⟨["target"], b, Or.inl (by simp [c, chunkSize])⟩, Or.inr (Or.inr ⟨by simp [a], by simp [a], Or.inl (by simp [dimsOf, b, a])⟩)⟩
    intro q hq
    rcases hes1 with ⟨_, rfl⟩ | ⟨hn, e, he1, he2, he3, rfl⟩
    · exact h0 q hq
    · rcases List.mem_append.1 hq with hq | hq
      · exact h0 q hq
      · simp at hq; subst hq
        exact ⟨⟨["state"], he2, Or.inl (by simp [he3, chunkSize])⟩, Or.inr (Or.inr ⟨by simp, by simp, Or.inl (by simp [dimsOf, he2])⟩)⟩
  obtain ⟨hk2, mem2, keep2, new2⟩ := fill_spec nan [s.2 - s.1, t.2 - t.1, 1] ["state", "target", "target_point"] ov es1 hk1
  have hpt1 : ∃ e, es1.lookup "targets" = some e ∧ Window (offset s t) (chunkSize sz s t) pt.2 e := by
    obtain ⟨e, he, hwd⟩ := hE1of pt (by simp [hpt])
    rw [hptn] at he
    exact ⟨e, keep1 _ _ he, hwd⟩
  have hpw1 : ∃ e, es1.lookup "tpoint_weights" = some e := by
    obtain ⟨e, he, hwd⟩ := hE1of pw (by simp [hpw])
    rw [hpwn] at he
    exact ⟨e, keep1 _ _ he⟩
  have good2 : ∀ q ∈ fill nan [s.2 - s.1, t.2 - t.1, 1] ["state", "target", "target_point"] ov es1, Good (chunkSize sz s t) q ∧ ClassOk .target (chunkSize sz s t) q := by
    intro q hq
    rcases mem2 q hq with h | ⟨_, h⟩
    · exact good1 q h
    · by_cases h1 : (es1.lookup q.1).isSome
      · obtain ⟨e, he⟩ := Option.isSome_iff_exists.1 h1
        have := keep2 _ _ he
        rw [lookup_of_mem _ hk2 q.1 q.2 hq] at this
        have he' : q.2 = e := by simpa using this
        have : q = (q.1, e) := by rw [← he']
        rw [this]
        exact good1 _ (mem_of_lookup _ _ _ he)
      · obtain ⟨e1, he1, _⟩ := hpt1
        obtain ⟨e2, he2⟩ := hpw1
        refine ⟨⟨["state", "target", "target_point"], by rw [h], Or.inl (by rw [h]; simp [chunkSize, hpv.one])⟩, Or.inr (Or.inr ⟨?_, ?_, Or.inr ?_⟩)⟩
        · intro hq1; rw [hq1, he1] at h1; simp at h1
        · intro hq1; rw [hq1, he2] at h1; simp at h1
        · rw [h]; simp [dimsOf]
  obtain ⟨d, e1, e2, e3, e4, _, e6, _⟩ := construct_good .target coord (chunkSize sz s t) _ ["state", "target"] (some s.1) hk2 (fun q hq => (good2 q hq).1)
    (fun q hq => (good2 q hq).2) (by simp) (by
      intro _
      obtain ⟨a, ha, _⟩ := hpt1
      obtain ⟨b, hb⟩ := hpw1
      rw [keep2 _ _ ha, keep2 _ _ hb]; exact ⟨rfl, rfl⟩)
  have hnone : ∀ o, o ∉ (ds.coords ++ ds.vars).map Prod.fst → o ≠ "target" → E1.lookup o = none := by
    intro o h1 h2
    apply lookup_none_of
    intro hm
    obtain ⟨q, hq, rfl⟩ := List.mem_map.1 hm
    rcases hE1m q hq with ⟨p, hp, hn, _⟩ | ⟨a, _⟩
    · exact h1 (List.mem_map.2 ⟨p, hp, hn.symm⟩)
    · exact h2 a
  have hsizes : ∀ c ∈ ["state", "target", "target_point", "xyh"], d.sizes.lookup c = some (chunkSize sz s t c) := by
    obtain ⟨e, he, l, a1, a2, a3, _⟩ := hpt1
    have hl : l = ["state", "target", "target_point", "xyh"] := by simpa [dimsOf, a1] using hptd
    subst hl
    have hdo : dimsOf e = ["state", "target", "target_point", "xyh"] := by simp [dimsOf, a2]
    intro c hc
    exact e6 ("targets", e) (mem_of_lookup _ _ _ (keep2 _ _ he)) (by simp only [hdo, a3]) c (by rw [hdo]; exact hc)
  refine ⟨d, ?_, e2, ?_, ?_, ?_, ?_, ?_, ?_, ?_⟩
  · have hadd : ∀ n, addStates coord (some s) n (fill nan [s.2 - s.1, t.2 - t.1, 1] ["state", "target", "target_point"] ov es1) =
        fill nan [s.2 - s.1, t.2 - t.1, 1] ["state", "target", "target_point"] ov es1 := by
      intro n
      obtain ⟨e, he⟩ := Option.isSome_iff_exists.1 hst1
      unfold addStates
      rw [keep2 _ _ he]
    simp only [chunkPoints, fromDataset, hvs]
    rw [show ds.coords.map (coordIn (some s)) ++ ds.vars.map (varOut s) = cutEntries ds s from rfl]
    simp only [cbPoints, hE0, hti, hws, hadd]
    exact e1
  · intro p hp
    obtain ⟨e', he, hwd⟩ := hE1of p hp
    exact ⟨e', e4 _ _ (keep2 _ _ (keep1 _ _ he)), hwd⟩
  · intro hno
    have hl : E1.lookup "state" = none := by
      apply hnone _ _ (by decide)
      rw [List.map_append, List.mem_append]
      rintro (h | h)
      · exact hno h
      · obtain ⟨p, hp, h⟩ := List.mem_map.1 h
        exact (hds.names p hp).1 h
    rcases hes1 with ⟨h, rfl⟩ | ⟨_, e, he, _, _, rfl⟩
    · rw [hl] at h; simp at h
    · rw [he]
      apply e4
      apply keep2
      rw [List.lookup_append, hl]; simp [List.lookup]
  · intro hno
    refine ⟨_, e4 _ _ (keep2 _ _ (keep1 _ _ (lookup_of_mem _ hE1k "target" _ (List.mem_map.2 ⟨_, mem_of_lookup _ _ _ (hE0t hno), hE1t⟩)))), rfl, rfl, ?_⟩
    intro j
    simp only [slice0, List.headD_cons]
    rw [Nat.min_eq_left (hv.trans hv2)]
  · intro o ho ho1 ho2 ho3
    apply e4
    apply new2 o ho
    rcases hes1 with ⟨_, rfl⟩ | ⟨_, e, _, _, _, rfl⟩
    · exact hnone o ho1 ho3
    · rw [List.lookup_append, hnone o ho1 ho3]
      simp [List.lookup, beq_eq_false_iff_ne.2 ho2]
  · have := hsizes "target" (by simp)
    simpa [nTargets, chunkSize] using this
  · have := hsizes "target_point" (by simp)
    simpa [nTPoints, chunkSize, hpv.one] using this
  · have := hsizes "state" (by simp)
    simpa [Data.size, chunkSize] using this

/-! ### The input of a chunk -/

/-- The input of a chunk of a farm calculation: model data and farm data, both cut to the states of the chunk. -/
theorem C68_input_farm (coord : ℕ → V) (nan : V) (szm sz : String → ℕ) (md fd : DS V) (hm : DSOk szm md) (hf : DSOk sz fd) (hfv : FarmVars fd)
    (s t : ℕ × ℕ) (hw : s.1 ≤ s.2) (hwm : s.2 ≤ szm "state") (hw2 : s.2 ≤ sz "state") (ov : List String)
    (hst : "state" ∈ md.coords.map Prod.fst ∨ ∃ p ∈ md.vars, "state" ∈ dimsOf p.2)
    (ht : (∃ p ∈ fd.coords ++ fd.vars, "turbine" ∈ dimsOf p.2) ∨ ∃ o ∈ ov, o ∉ (fd.coords ++ fd.vars).map Prod.fst ∧ o ≠ "state") :
    ∃ m f, chunkInput coord nan (sz "turbine") md fd none s t ov = .ok [m, f] ∧ m.i0 = some s.1 ∧ f.i0 = some s.1 ∧
      (∀ p ∈ md.coords ++ md.vars, ¬ StateWeight p → ∃ e', m.entries.lookup p.1 = some e' ∧ Window (offS s) (sizeS szm s) p.2 e') ∧
      (∀ p ∈ fd.coords ++ fd.vars, ¬ StateWeight p → ∃ e', f.entries.lookup p.1 = some e' ∧ Window (offS s) (sizeS sz s) p.2 e') ∧
      (∀ o ∈ ov, o ∉ (fd.coords ++ fd.vars).map Prod.fst → o ≠ "state" →
        f.entries.lookup o = some ⟨⟨[s.2 - s.1, sz "turbine"], fun _ => nan⟩, some ["state", "turbine"]⟩) ∧
      ("state" ∉ fd.coords.map Prod.fst → f.entries.lookup "state" = m.entries.lookup "state") := by
  obtain ⟨m, a1, a2, a3, a4⟩ := C68_model_chunk coord szm md hm s hw hwm
  obtain ⟨m', b1, b2⟩ := C68_model_states coord szm md hm s hw hwm hst
  rw [a1] at b1
  obtain rfl : m = m' := by simpa using b1
  obtain ⟨f, c1, c2, c3, c4, c5, c6⟩ := C68_farm_chunk coord nan sz fd hf hfv s hw hw2 m b2 (some ov) (by simpa using ht)
  refine ⟨m, f, ?_, a2, c2, a3, c3, fun o ho => c6 o (by simpa using ho), c5⟩
  simp only [chunkInput, a1, c1]

/-- The input of a chunk of a calculation at points: model data and farm data for the states of the chunk, and target data for its states and targets. -/
theorem C68_input_points (coord : ℕ → V) (nan : V) (szm sz szp : String → ℕ) (md fd pd : DS V) (hm : DSOk szm md) (hf : DSOk sz fd) (hfv : FarmVars fd)
    (hp : DSOk szp pd) (hpv : PointVars szp pd) (s t : ℕ × ℕ) (hw : s.1 ≤ s.2) (hwm : s.2 ≤ szm "state") (hw2 : s.2 ≤ sz "state") (hwp : s.2 ≤ szp "state")
    (hv : t.1 ≤ t.2) (hv2 : t.2 ≤ szp "target") (ov : List String)
    (hst : "state" ∈ md.coords.map Prod.fst ∨ ∃ p ∈ md.vars, "state" ∈ dimsOf p.2) (ht : ∃ p ∈ fd.coords ++ fd.vars, "turbine" ∈ dimsOf p.2) :
    ∃ m f d, chunkInput coord nan (sz "turbine") md fd (some pd) s t ov = .ok [m, f, d] ∧ m.i0 = some s.1 ∧ f.i0 = some s.1 ∧ d.i0 = some s.1 ∧
      (∀ p ∈ md.coords ++ md.vars, ¬ StateWeight p → ∃ e', m.entries.lookup p.1 = some e' ∧ Window (offS s) (sizeS szm s) p.2 e') ∧
      (∀ p ∈ fd.coords ++ fd.vars, ¬ StateWeight p → ∃ e', f.entries.lookup p.1 = some e' ∧ Window (offS s) (sizeS sz s) p.2 e') ∧
      (∀ p ∈ pd.coords ++ pd.vars, ∃ e', d.entries.lookup p.1 = some e' ∧ Window (offset s t) (chunkSize szp s t) p.2 e') ∧
      (∀ o ∈ ov, o ∉ (pd.coords ++ pd.vars).map Prod.fst → o ≠ "state" → o ≠ "target" →
        d.entries.lookup o = some ⟨⟨[s.2 - s.1, t.2 - t.1, 1], fun _ => nan⟩, some ["state", "target", "target_point"]⟩) ∧
      ("target" ∉ pd.coords.map Prod.fst → targetsI0 d = some (coord t.1)) ∧ nTargets d = some (t.2 - t.1) := by
  obtain ⟨m, a1, a2, a3, a4⟩ := C68_model_chunk coord szm md hm s hw hwm
  obtain ⟨m', b1, b2⟩ := C68_model_states coord szm md hm s hw hwm hst
  rw [a1] at b1
  obtain rfl : m = m' := by simpa using b1
  obtain ⟨f, c1, c2, c3, c4, c5, c6⟩ := C68_farm_chunk coord nan sz fd hf hfv s hw hw2 m b2 none (Or.inl ht)
  obtain ⟨d, e1, e2, e3, e4, e5, e6, e7, _⟩ := C68_points_chunk coord nan szp pd hp hpv s t hw hwp hv hv2 m b2 ov
  refine ⟨m, f, d, ?_, a2, c2, e2, a3, c3, e3, e6, ?_, e7⟩
  · simp only [chunkInput, a1, c1, e1]
  · intro hno
    obtain ⟨e, he, _, _, hval⟩ := e5 hno
    simp only [targetsI0, he, Option.map_some, hval 0, Nat.zero_add]

/-- sizes for points -/
def pointSizes (n p : ℕ) (c : String) : ℕ := if c = "state" then n else if c = "target" then p else if c = "target_point" then 1 else 3

/-- The points that a user gives, one set for each state or one set for all states, reach the calculation of the chunk: the point of state `i` and target `j` of the chunk
is the point with index `t.1 + j` of state `s.1 + i`. -/
theorem C68_user_points (one : V) (coord : ℕ → V) (nan : V) (n np : ℕ) (points : Arr V) (s t : ℕ × ℕ) (hw : s.1 ≤ s.2) (hw2 : s.2 ≤ n) (hv : t.1 ≤ t.2) (hv2 : t.2 ≤ np)
    (hp : points.shape = [n, np, 3] ∨ points.shape = [np, 3]) (m : Data V) (hm : HasStates s m) (ov : List String) :
    ∃ ds d e w, newPointData one points none n = .ok ds ∧ chunkPoints coord nan m ds s t ov = .ok d ∧ d.entries.lookup "targets" = some e ∧
      e.arr.shape = [s.2 - s.1, t.2 - t.1, 1, 3] ∧
      (∀ i j k, e.arr.val [i, j, 0, k] = if points.shape.length = 2 then points.val [j + t.1, k] else points.val [i + s.1, j + t.1, k]) ∧
      d.entries.lookup "tpoint_weights" = some w ∧ w.arr.shape = [1] ∧ w.arr.val [0] = one ∧
      (∀ o ∈ ov, o ∉ ["targets", "tpoint_weights", "state", "target"] →
        d.entries.lookup o = some ⟨⟨[s.2 - s.1, t.2 - t.1, 1], fun _ => nan⟩, some ["state", "target", "target_point"]⟩) := by
  have hrs : (repeatPoints n points).shape = [n, np, 3] := by
    unfold repeatPoints
    rcases hp with h | h
    · rw [if_neg (by simp [h])]; exact h
    · rw [if_pos (by simp [h])]; simp [h]
  set ds : DS V := ⟨[], [("targets", ⟨pointAxis (repeatPoints n points), some ["state", "target", "target_point", "xyh"]⟩),
    ("tpoint_weights", ⟨⟨[1], fun _ => one⟩, some ["target_point"]⟩)]⟩ with hds0
  have hnew : newPointData one points none n = .ok ds := by
    simp only [newPointData]
    rw [if_neg (by simp [hrs])]
  have hds : DSOk (pointSizes n np) ds := by
    refine ⟨by simp [hds0], ?_, by simp [hds0], ?_, ?_⟩
    · intro p hp
      simp only [hds0, List.nil_append, List.mem_cons, List.not_mem_nil, or_false] at hp
      rcases hp with rfl | rfl
      · exact ⟨_, rfl, by decide, by simp [pointAxis, hrs, pointSizes]⟩
      · exact ⟨_, rfl, by decide, by simp [pointSizes]⟩
    · intro p hp
      simp only [hds0, List.mem_cons, List.not_mem_nil, or_false] at hp
      rcases hp with rfl | rfl <;> simp [dimsOf]
    · intro p hp
      simp only [hds0, List.mem_cons, List.not_mem_nil, or_false] at hp
      rcases hp with rfl | rfl <;> simp
  have hpv : PointVars (pointSizes n np) ds := by
    refine ⟨⟨_, by simp [hds0]; left; rfl, rfl⟩, ⟨_, by simp [hds0]; right; rfl, rfl⟩, ?_, by simp [hds0], by simp [pointSizes], by simp [pointSizes]⟩
    intro p hp
    simp only [hds0, List.mem_cons, List.not_mem_nil, or_false] at hp
    rcases hp with rfl | rfl
    · left; simp [dimsOf]
    · right; left; simp [dimsOf]
  obtain ⟨d, e1, e2, e3, e4, e5, e6, _⟩ := C68_points_chunk coord nan (pointSizes n np) ds hds hpv s t hw (by simpa [pointSizes] using hw2) hv
    (by simpa [pointSizes] using hv2) m hm ov
  obtain ⟨e, he, l, a1, a2, a3, a4⟩ := e3 ("targets", ⟨pointAxis (repeatPoints n points), some ["state", "target", "target_point", "xyh"]⟩) (by simp [hds0])
  obtain ⟨w, hwe, l', b1, b2, b3, b4⟩ := e3 ("tpoint_weights", ⟨⟨[1], fun _ => one⟩, some ["target_point"]⟩) (by simp [hds0])
  simp at a1 b1; subst a1; subst b1
  refine ⟨ds, d, e, w, hnew, e1, he, ?_, ?_, hwe, ?_, ?_, ?_⟩
  · simpa [chunkSize, pointSizes] using a3
  · intro i j k
    have hz : List.zipWith (fun c i => i + offset s t c) ["state", "target", "target_point", "xyh"] [i, j, 0, k] = [i + s.1, j + t.1, 0, k] := by simp [offset]
    rw [a4 [i, j, 0, k] rfl, hz]
    rcases hp with h | h <;> simp [pointAxis, repeatPoints, h]
  · simpa [chunkSize, pointSizes] using b3
  · rw [b4 [0] rfl]
  · intro o ho hno
    simp only [List.mem_cons, List.not_mem_nil, or_false, not_or] at hno
    exact e6 o ho (by simp [hds0, hno.1, hno.2.1]) hno.2.2.1 hno.2.2.2

/-- Points of another shape are refused. -/
theorem C68_user_points_refused (one : V) (n : ℕ) (points : Arr V) (idx : Option (Arr V)) (h : ∀ np, points.shape ≠ [n, np, 3] ∧ points.shape ≠ [np, 3]) :
    ∃ x, newPointData one points idx n = .error x := by
  have h0 : repeatPoints n points = points := by
    unfold repeatPoints
    rw [if_neg]
    rintro ⟨h1, h2⟩
    obtain ⟨a, b, hab⟩ : ∃ a b, points.shape = [a, b] := by
      match hs : points.shape, h1 with
      | [a, b], _ => exact ⟨a, b, rfl⟩
    rw [hab] at h2
    simp at h2; subst h2
    exact (h a).2 hab
  simp only [newPointData, h0]
  rw [if_pos]
  · exact ⟨_, rfl⟩
  · by_contra hc
    push Not at hc
    obtain ⟨h1, h2, h3⟩ := hc
    match hs : points.shape, h1 with
    | [a, b, c], _ =>
      rw [hs] at h2 h3
      simp at h2 h3
      subst h2; subst h3
      exact (h b).1 hs

/-- The counter of the first state of a chunk is its start, for all containers with states. -/
theorem C68_states_i0 (d : Data V) (s : ℕ × ℕ) (h : d.i0 = some s.1) (hs : HasStates s d) : statesI0 d true = .ok (some (.inl s.1)) := by
  obtain ⟨e, he, _⟩ := hs
  simp only [statesI0, he, h, if_true]

/-! ### What accepted containers look like -/

/-- The form of an entry in an accepted container, for the known sizes. -/
def Form (k : Kind) (sizes : List (String × ℕ)) (v : String) (e : Entry V) : Prop :=
  match k with
  | .model => True
  | .farm => (sizes.lookup v).isSome ∨ v = "tname" ∨ v = "weight" ∨ (∃ l, e.dims = some l ∧ ["state", "turbine"] <+: l) ∨ (v = "txyh" ∧ (sizes.lookup "X").isSome)
  | .target => (v = "targets" ∧ e.dims = some ["state", "target", "target_point", "xyh"]) ∨ (v = "tpoint_weights" ∧ e.dims = some ["target_point"]) ∨
      (v ≠ "targets" ∧ v ≠ "tpoint_weights" ∧ ((sizes.lookup v).isSome ∨ (∃ l, e.dims = some l ∧ ["state", "target", "target_point"] <+: l) ∨
        (v = "txyh" ∧ (sizes.lookup "X").isSome)))

lemma form_mono {k : Kind} {s s' : List (String × ℕ)} (hg : Grows s s') {v : String} {e : Entry V} (h : Form k s v e) : Form k s' v e := by
  have up : ∀ c, (s.lookup c).isSome → (s'.lookup c).isSome := by
    intro c hc
    obtain ⟨m, hm⟩ := Option.isSome_iff_exists.1 hc
    obtain ⟨m', hm', _⟩ := hg c m hm
    rw [hm']; rfl
  cases k with
  | model => trivial
  | farm =>
    rcases h with h | h | h | h | ⟨h1, h2⟩
    · exact Or.inl (up _ h)
    · exact Or.inr (Or.inl h)
    · exact Or.inr (Or.inr (Or.inl h))
    · exact Or.inr (Or.inr (Or.inr (Or.inl h)))
    · exact Or.inr (Or.inr (Or.inr (Or.inr ⟨h1, up _ h2⟩)))
  | target =>
    rcases h with h | h | ⟨a, b, h | h | ⟨h1, h2⟩⟩
    · exact Or.inl h
    · exact Or.inr (Or.inl h)
    · exact Or.inr (Or.inr ⟨a, b, Or.inl (up _ h)⟩)
    · exact Or.inr (Or.inr ⟨a, b, Or.inr (Or.inl h)⟩)
    · exact Or.inr (Or.inr ⟨a, b, Or.inr (Or.inr ⟨h1, up _ h2⟩)⟩)

lemma take_prefix {l p : List String} (n : ℕ) (h : l.take n = p) : p <+: l := h ▸ List.take_prefix n l

lemma farmCheck_form (d : Data V) (v : String) (h : farmCheck d v = none) : ∃ e, d.entries.lookup v = some e ∧ Form .farm d.sizes v e := by
  unfold farmCheck at h
  cases hl : d.entries.lookup v with
  | none => rw [hl] at h; simp at h
  | some e =>
    rw [hl] at h
    refine ⟨e, rfl, ?_⟩
    simp only at h
    by_cases h1 : (d.sizes.lookup v).isSome ∨ v = "tname" ∨ v = "weight"
    · rcases h1 with h1 | h1 | h1
      · exact Or.inl h1
      · exact Or.inr (Or.inl h1)
      · exact Or.inr (Or.inr (Or.inl h1))
    · rw [if_neg h1] at h
      by_cases h2 : e.arr.shape.length < 2
      · rw [if_pos h2] at h; simp at h
      · rw [if_neg h2] at h
        cases hd : e.dims with
        | none => rw [hd] at h; simp at h
        | some l =>
          rw [hd] at h
          simp only at h
          by_cases h3 : l.length < 2 ∨ l.take 2 ≠ ["state", "turbine"]
          · rw [if_pos h3] at h; simp at h
          · push Not at h3
            exact Or.inr (Or.inr (Or.inr (Or.inl ⟨l, hd, take_prefix 2 h3.2⟩)))

lemma targetCheck_form (d : Data V) (v : String) (h : targetCheck d v = none) : ∃ e, d.entries.lookup v = some e ∧ Form .target d.sizes v e := by
  unfold targetCheck at h
  cases hl : d.entries.lookup v with
  | none => rw [hl] at h; simp at h
  | some e =>
    rw [hl] at h
    refine ⟨e, rfl, ?_⟩
    simp only at h
    by_cases hv1 : v = "targets"
    · rw [if_pos hv1] at h
      split at h
      · split at h
        · simp at h
        · rename_i hd
          exact Or.inl ⟨hv1, by simpa using hd⟩
      · simp at h
    · rw [if_neg hv1] at h
      by_cases hv2 : v = "tpoint_weights"
      · rw [if_pos hv2] at h
        split at h
        · simp at h
        · split at h
          · simp at h
          · rename_i hd
            exact Or.inr (Or.inl ⟨hv2, by simpa using hd⟩)
      · rw [if_neg hv2] at h
        refine Or.inr (Or.inr ⟨hv1, hv2, ?_⟩)
        split at h
        · simp at h
        · split at h
          · simp at h
          · split at h
            · rename_i hs; exact Or.inl hs
            · split at h
              · split at h
                · simp at h
                · split at h
                  · simp at h
                  · rename_i l hd
                    split at h
                    · simp at h
                    · rename_i h3
                      push Not at h3
                      exact Or.inr (Or.inl ⟨l, hd, take_prefix 3 h3.2⟩)
              · simp at h

lemma checks_form (k : Kind) (d d' : Data V) (v : String) (e : Entry V) (h : checks k d v e = .ok d') (hv : (d.entries.lookup v).isSome) :
    Grows d.sizes d'.sizes ∧ (∀ w, w ≠ v → d'.entries.lookup w = d.entries.lookup w) ∧ ∃ e', d'.entries.lookup v = some e' ∧ Form k d'.sizes v e' := by
  unfold checks at h
  cases hec : entryChecks d v e with
  | mk d1 o =>
    rw [hec] at h
    cases o with
    | some x => simp at h
    | none =>
      simp only at h
      obtain ⟨g, _, _, h1, h2, h3⟩ := entryChecks_spec d d1 v e hec
      cases hcc : classCheck k d1 v with
      | some x => rw [hcc] at h; simp at h
      | none =>
        rw [hcc] at h
        simp at h; subst h
        refine ⟨g, h1, ?_⟩
        cases k with
        | model =>
          by_cases hed : e.dims = none
          · have := h2 hed
            subst this
            obtain ⟨e', he'⟩ := Option.isSome_iff_exists.1 hv
            exact ⟨e', he', trivial⟩
          · obtain ⟨e', he', _⟩ := h3 hed
            exact ⟨e', he', trivial⟩
        | farm => exact farmCheck_form d1 v hcc
        | target => exact targetCheck_form d1 v hcc

lemma checkLoop_form (k : Kind) (l : List (String × Entry V)) (d d' : Data V) (h : checkLoop k d l = .ok d') (hk : (l.map Prod.fst).Nodup)
    (hl : ∀ p ∈ l, (d.entries.lookup p.1).isSome) :
    Grows d.sizes d'.sizes ∧ ∀ v e, d'.entries.lookup v = some e → Form k d'.sizes v e ∨ (v ∉ l.map Prod.fst ∧ d.entries.lookup v = some e) := by
  induction l generalizing d with
  | nil =>
    simp [checkLoop] at h; subst h
    exact ⟨Grows.refl _, fun v e he => Or.inr ⟨by simp, he⟩⟩
  | cons p l ih =>
    obtain ⟨w, f⟩ := p
    simp only [checkLoop] at h
    cases hc : checks k d w f with
    | error x => rw [hc] at h; simp at h
    | ok d1 =>
      rw [hc] at h
      simp only at h
      obtain ⟨g1, h1, e', he', hf⟩ := checks_form k d d1 w f hc (hl (w, f) (by simp))
      simp only [List.map_cons, List.nodup_cons] at hk
      obtain ⟨g2, h2⟩ := ih d1 h hk.2 (by
        intro q hq
        have : q.1 ≠ w := by
          intro hqw
          exact hk.1 (List.mem_map.2 ⟨q, hq, hqw⟩)
        rw [h1 q.1 this]
        exact hl q (by simp [hq]))
      refine ⟨g1.trans g2, ?_⟩
      intro v e he
      rcases h2 v e he with hF | ⟨hv, hv1⟩
      · exact Or.inl hF
      · by_cases hvw : v = w
        · subst hvw
          rw [he'] at hv1
          obtain rfl := Option.some.inj hv1
          exact Or.inl (form_mono g2 hf)
        · right
          refine ⟨?_, by rw [← h1 v hvw]; exact hv1⟩
          simp only [List.map_cons, List.mem_cons, not_or]
          exact ⟨hvw, hv⟩

lemma stack_form (k : Kind) (d d' : Data V) (h : stack d = .ok d') (hf : ∀ v e, d.entries.lookup v = some e → Form k d.sizes v e) :
    d'.sizes = d.sizes ∧ ∀ v e, d'.entries.lookup v = some e → Form k d.sizes v e := by
  unfold stack at h
  split at h
  · rename_i x y hh e1 e2 e3 e4
    split at h
    · split at h
      · split at h
        · simp at h
        · rename_i l hl
          simp at h; subst h
          refine ⟨rfl, ?_⟩
          intro v e he
          simp only at he
          rw [lookup_insertKey] at he
          by_cases hv : v = "txyh"
          · subst hv
            rw [if_pos rfl] at he
            obtain rfl := Option.some.inj he
            have hx := hf _ _ e2
            cases k with
            | model => trivial
            | farm =>
              rcases hx with h | h | h | ⟨l', h, hp⟩ | ⟨h, _⟩
              · exact Or.inr (Or.inr (Or.inr (Or.inr ⟨rfl, h⟩)))
              · simp at h
              · simp at h
              · rw [hl] at h
                simp at h; subst h
                exact Or.inr (Or.inr (Or.inr (Or.inl ⟨_, rfl, hp.trans (List.prefix_append _ _)⟩)))
              · simp at h
            | target =>
              rcases hx with ⟨h, _⟩ | ⟨h, _⟩ | ⟨_, _, h | ⟨l', h, hp⟩ | ⟨h, _⟩⟩
              · simp at h
              · simp at h
              · exact Or.inr (Or.inr ⟨by decide, by decide, Or.inr (Or.inr ⟨rfl, h⟩)⟩)
              · rw [hl] at h
                simp at h; subst h
                exact Or.inr (Or.inr ⟨by decide, by decide, Or.inr (Or.inl ⟨_, rfl, hp.trans (List.prefix_append _ _)⟩)⟩)
              · simp at h
          · rw [if_neg hv] at he
            exact hf v e he
      · simp at h
    · simp at h; subst h
      exact ⟨rfl, hf⟩
  · simp at h; subst h
    exact ⟨rfl, hf⟩

/-- what accepted containers of a class contain -/
def Present (k : Kind) (d : Data V) : Prop :=
  d.entries = [] ∨ (k = .farm → (d.size "state").isSome ∧ (d.size "turbine").isSome) ∧
    (k = .target → (d.entries.lookup "targets").isSome ∧ (d.entries.lookup "tpoint_weights").isSome ∧ (d.size "state").isSome ∧ (d.size "target").isSome ∧
      (d.size "target_point").isSome)

/-- a container of the class is as documented -/
def Formed (k : Kind) (d : Data V) : Prop := (∀ v e, d.entries.lookup v = some e → Form k d.sizes v e) ∧ Present k d

lemma update_form (k : Kind) (coord : ℕ → V) (d d' : Data V) (h : update k coord d = .ok d') (hf : ∀ v e, d.entries.lookup v = some e → Form k d.sizes v e)
    (hnt : k = .target → ∀ c ∈ dimNames d.entries, c ≠ "targets" ∧ c ≠ "tpoint_weights") : Formed k d' := by
  unfold update at h
  cases hs : stack d with
  | error x => rw [hs] at h; simp [bind, Except.bind] at h
  | ok d1 =>
    rw [hs] at h
    simp only [bind, Except.bind] at h
    obtain ⟨hz, hf1⟩ := stack_form k d d1 hs hf
    have hdn : k = .target → ∀ c ∈ dimNames d1.entries, c ≠ "targets" ∧ c ≠ "tpoint_weights" := by
      intro hk c hc
      unfold stack at hs
      split at hs
      · rename_i x y hh e1 e2 e3 e4
        split at hs
        · split at hs
          · split at hs
            · simp at hs
            · rename_i l hl
              simp at hs; subst hs
              simp only at hc
              rw [insertKey_new _ _ _ e1] at hc
              simp only [dimNames, List.flatMap_append, List.mem_append] at hc
              rcases hc with hc | hc
              · exact hnt hk c hc
              · simp only [List.flatMap_cons, List.flatMap_nil, List.append_nil, Option.getD_some, List.mem_append, List.mem_cons, List.not_mem_nil, or_false] at hc
                rcases hc with hc | rfl
                · apply hnt hk c
                  simp only [dimNames, List.mem_flatMap]
                  exact ⟨("X", x), mem_of_lookup _ _ _ e2, by simp [hl, hc]⟩
                · decide
          · simp at hs
        · simp at hs; subst hs; exact hnt hk c hc
      · simp at hs; subst hs; exact hnt hk c hc
    cases hl : lastCheck k (autoUpdate coord d1) with
    | some x => rw [hl] at h; simp at h
    | none =>
      rw [hl] at h
      simp at h; subst h
      refine ⟨?_, ?_⟩
      · intro v e he
        have hsz : (autoUpdate coord d1).sizes = d.sizes := hz
        rw [hsz]
        obtain ⟨_, c2, _⟩ := coordFold_spec coord d1.sizes (dimNames d1.entries) d1.entries
        rcases c2 v e he with h | ⟨_, hm, n, hn, rfl⟩
        · exact hf1 v e h
        · rw [hz] at hn
          cases k with
          | model => trivial
          | farm => exact Or.inl (by rw [hn]; rfl)
          | target => exact Or.inr (Or.inr ⟨(hdn rfl v hm).1, (hdn rfl v hm).2, Or.inl (by rw [hn]; rfl)⟩)
      · unfold lastCheck at hl
        split at hl
        · left; assumption
        · right
          cases k with
          | model => simp
          | farm =>
            simp only at hl
            split at hl
            · rename_i h
              simp only [List.all_cons, List.all_nil, Bool.and_true, Bool.and_eq_true] at h
              exact ⟨fun _ => h, by simp⟩
            · simp at hl
          | target =>
            simp only at hl
            split at hl
            · rename_i h
              simp only [List.all_cons, List.all_nil, Bool.and_true, Bool.and_eq_true] at h
              exact ⟨by simp, fun _ => ⟨h.1.1, h.1.2, h.2.1, h.2.2.1, h.2.2.2⟩⟩
            · simp at hl

/-- Constructed containers are as documented: farm data has dimensions (state, turbine, ...), target data has dimensions (state, target, point, ...). -/
theorem C68_constructed_form (k : Kind) (coord : ℕ → V) (es : List (String × Entry V)) (ld : List String) (i0 : Option ℕ) (hk : (es.map Prod.fst).Nodup)
    (d : Data V) (h : construct k coord es ld i0 = .ok d) (hn : k = .target → ∀ c ∈ dimNames es, c ≠ "targets" ∧ c ≠ "tpoint_weights")
    (hrank : ∀ p ∈ es, ∃ l, p.2.dims = some l ∧ l.length = p.2.arr.shape.length) : Formed k d := by
  unfold construct at h
  cases hc : checkLoop k { entries := es, sizes := [], loopDims := ld, i0 := i0 } es with
  | error x => rw [hc] at h; simp at h
  | ok d1 =>
    rw [hc] at h
    simp only at h
    obtain ⟨_, hf⟩ := checkLoop_form k es _ d1 hc hk (by
      intro p hp
      simp only
      rw [lookup_of_mem es hk p.1 p.2 hp]; rfl)
    have hent : d1.entries = es := by
      have step : ∀ (l : List (String × Entry V)) (d0 d1 : Data V), (∀ p ∈ l, d0.entries.lookup p.1 = some p.2) →
          (∀ p ∈ l, ∃ ds, p.2.dims = some ds ∧ ds.length = p.2.arr.shape.length) → checkLoop k d0 l = .ok d1 → d1.entries = d0.entries := by
        intro l
        induction l with
        | nil => intro d0 d1 _ _ h; simp [checkLoop] at h; subst h; rfl
        | cons p l ih =>
          obtain ⟨v, e⟩ := p
          intro d0 d1 hl hrk h
          obtain ⟨ds, hds, hlen⟩ := hrk (v, e) (by simp)
          simp only at hds hlen
          have he : (⟨e.arr, some ds⟩ : Entry V) = e := by cases e; simp at hds; simp [hds]
          have hself : insertKey v e d0.entries = d0.entries := insertKey_self v e _ (hl (v, e) (by simp))
          simp only [checkLoop, checks, entryChecks, hds, kept, hlen, ne_eq, not_true_eq_false, if_false, he, hself] at h
          split at h
          · simp at h
          · rename_i d2 hd2
            split at hd2
            · simp at hd2
            · rename_i d3 hd3
              simp only [Prod.mk.injEq] at hd3
              obtain ⟨rfl, _⟩ := hd3
              split at hd2
              · simp at hd2
              · simp at hd2; subst hd2
                exact ih { d0 with sizes := (checkSizes d0.sizes ds e.arr.shape).1 } d1 (fun q hq => hl q (by simp [hq])) (fun q hq => hrk q (by simp [hq])) h
      exact step es _ d1 (fun p hp => lookup_of_mem es hk p.1 p.2 hp) hrank hc
    apply update_form k coord d1 d h
    · intro v e he
      rcases hf v e he with h | ⟨hv, hes⟩
      · exact h
      · simp only at hes
        exact absurd (List.mem_map.2 ⟨(v, e), mem_of_lookup _ _ _ hes, rfl⟩) hv
    · rw [hent]; exact hn

/-- An entry that is added later is checked in the same way: a container as documented stays so. -/
theorem C68_added_form (k : Kind) (coord : ℕ → V) (d d' : Data V) (v : String) (e : Entry V) (hd : Formed k d) (h : addTo k coord d v e = .ok d')
    (hn : k = .target → ∀ c ∈ dimNames d.entries ++ dimsOf e, c ≠ "targets" ∧ c ≠ "tpoint_weights") : Formed k d' := by
  unfold addTo at h
  cases hc : checks k { d with entries := insertKey v e d.entries } v e with
  | error x => rw [hc] at h; simp at h
  | ok d1 =>
    rw [hc] at h
    simp only at h
    obtain ⟨g, h1, e', he', hf⟩ := checks_form k _ d1 v e hc (by simp [lookup_insertKey])
    apply update_form k coord d1 d' h
    · intro w f hw
      by_cases hwv : w = v
      · subst hwv
        rw [he'] at hw
        obtain rfl := Option.some.inj hw
        exact hf
      · rw [h1 w hwv] at hw
        simp only [lookup_insertKey, if_neg hwv] at hw
        exact form_mono g (hd.1 w f hw)
    · intro hk c hcm
      apply hn hk c
      -- the names of dimensions do not change by the checks
      unfold checks at hc
      cases hec : entryChecks { d with entries := insertKey v e d.entries } v e with
      | mk d2 o =>
        rw [hec] at hc
        cases o with
        | some x => simp at hc
        | none =>
          simp only at hc
          have hd12 : d1 = d2 := by
            cases hcc : classCheck k d2 v with
            | some x => rw [hcc] at hc; simp at hc
            | none => rw [hcc] at hc; simp at hc; exact hc.symm
          subst hd12
          have hmem : ∀ (x : Entry V) (l : List (String × Entry V)) c, c ∈ dimNames (insertKey v x l) → c ∈ dimNames l ++ dimsOf x := by
            intro x l c hcx
            simp only [dimNames, List.mem_flatMap] at hcx
            obtain ⟨q, hq, hcq⟩ := hcx
            have : q = (v, x) ∨ q ∈ l := by
              clear hcq
              induction l with
              | nil => simp [insertKey] at hq; exact Or.inl hq
              | cons p l ih =>
                obtain ⟨a, y⟩ := p
                simp only [insertKey] at hq
                split at hq
                · rcases List.mem_cons.1 hq with h | h
                  · exact Or.inl h
                  · exact Or.inr (by simp [h])
                · rcases List.mem_cons.1 hq with h | h
                  · exact Or.inr (by simp [h])
                  · rcases ih h with h | h
                    · exact Or.inl h
                    · exact Or.inr (by simp [h])
            rcases this with rfl | h
            · exact List.mem_append_right _ hcq
            · apply List.mem_append_left
              simp only [dimNames, List.mem_flatMap]
              exact ⟨q, h, hcq⟩
          unfold entryChecks at hec
          cases hed : e.dims with
          | none =>
            rw [hed] at hec
            simp at hec; subst hec
            exact hmem e _ c hcm
          | some l =>
            rw [hed] at hec
            simp only at hec
            cases hkp : kept d.loopDims l e.arr with
            | error x => rw [hkp] at hec; simp at hec
            | ok a =>
              rw [hkp] at hec
              simp only [Prod.mk.injEq] at hec
              obtain ⟨rfl, _⟩ := hec
              simp only at hcm
              have h2 := hmem ⟨a, some l⟩ _ c hcm
              have hdl : dimsOf e = l := by simp [dimsOf, hed]
              rcases List.mem_append.1 h2 with h2 | h2
              · exact hmem e _ c h2
              · apply List.mem_append_right
                rw [hdl]; simpa [dimsOf] using h2

/-! ### Target data from points -/

lemma insertKey_mem {α : Type} (k : String) (x : α) (l : List (String × α)) (q : String × α) (h : q ∈ insertKey k x l) : q = (k, x) ∨ q ∈ l := by
  induction l with
  | nil => simp [insertKey] at h; exact Or.inl h
  | cons p l ih =>
    obtain ⟨a, y⟩ := p
    simp only [insertKey] at h
    split at h
    · rcases List.mem_cons.1 h with h | h
      · exact Or.inl h
      · exact Or.inr (by simp [h])
    · rcases List.mem_cons.1 h with h | h
      · exact Or.inr (by simp [h])
      · rcases ih h with h | h
        · exact Or.inl h
        · exact Or.inr (by simp [h])

lemma insertKey_keys {α : Type} (k : String) (x : α) (l : List (String × α)) (hk : (l.map Prod.fst).Nodup) : ((insertKey k x l).map Prod.fst).Nodup := by
  by_cases h : l.lookup k = none
  · rw [insertKey_new k x l h]
    exact nodup_append_one l k x hk h
  · have : (insertKey k x l).map Prod.fst = l.map Prod.fst := by
      clear hk
      induction l with
      | nil => simp at h
      | cons p l ih =>
        obtain ⟨a, y⟩ := p
        simp only [insertKey]
        split
        · rename_i hak; simp [hak]
        · rename_i hak
          have hka : k ≠ a := fun e => hak e.symm
          simp only [List.lookup, beq_eq_false_iff_ne.2 hka] at h
          simp [ih h]
    rw [this]; exact hk

/-- the sizes for points at targets -/
def tpointSizes (n nt np : ℕ) (c : String) : ℕ := if c = "state" then n else if c = "target" then nt else if c = "target_point" then np else 3

lemma pointDict_spec (nan : V) (tp tw : Arr V) (vs : List String) (data : List (String × Entry V)) (hk : (data.map Prod.fst).Nodup) :
    ((pointDict nan tp tw vs data).map Prod.fst).Nodup ∧
    (∀ q ∈ pointDict nan tp tw vs data, (q = ("targets", ⟨tp, some ["state", "target", "target_point", "xyh"]⟩) ∨ q = ("tpoint_weights", ⟨tw, some ["target_point"]⟩) ∨
      q ∈ data) ∨ (q.1 ∈ vs ∧ q.2 = ⟨⟨tp.shape.dropLast, fun _ => nan⟩, some ["state", "target", "target_point"]⟩)) ∧
    (∀ v, (pointDict nan tp tw vs data).lookup v = if v ∈ vs then some ⟨⟨tp.shape.dropLast, fun _ => nan⟩, some ["state", "target", "target_point"]⟩
      else if v = "tpoint_weights" then some ⟨tw, some ["target_point"]⟩ else if v = "targets" then some ⟨tp, some ["state", "target", "target_point", "xyh"]⟩
      else data.lookup v) := by
  have key : ∀ (x : Entry V) (vs : List String) (l : List (String × Entry V)), (l.map Prod.fst).Nodup →
      ((vs.foldl (fun es v => insertKey v x es) l).map Prod.fst).Nodup ∧ (∀ q ∈ vs.foldl (fun es v => insertKey v x es) l, q ∈ l ∨ (q.1 ∈ vs ∧ q.2 = x)) ∧
      (∀ v, (vs.foldl (fun es v => insertKey v x es) l).lookup v = if v ∈ vs then some x else l.lookup v) := by
    intro x vs
    induction vs with
    | nil => intro l hl; exact ⟨hl, fun q hq => Or.inl hq, fun v => by simp⟩
    | cons a vs ih =>
      intro l hl
      obtain ⟨h1, h2, h3⟩ := ih (insertKey a x l) (insertKey_keys a x l hl)
      refine ⟨h1, ?_, ?_⟩
      · intro q hq
        rcases h2 q hq with h | ⟨h, h'⟩
        · rcases insertKey_mem a x l q h with h | h
          · right; rw [h]; simp
          · exact Or.inl h
        · exact Or.inr ⟨by simp [h], h'⟩
      · intro v
        rw [List.foldl_cons, h3 v, lookup_insertKey]
        by_cases hv : v ∈ vs
        · simp [hv]
        · by_cases hva : v = a
          · simp [hva]
          · simp [hv, hva]
  obtain ⟨h1, h2, h3⟩ := key (⟨⟨tp.shape.dropLast, fun _ => nan⟩, some ["state", "target", "target_point"]⟩ : Entry V) vs
    (insertKey "tpoint_weights" ⟨tw, some ["target_point"]⟩ (insertKey "targets" ⟨tp, some ["state", "target", "target_point", "xyh"]⟩ data))
    (insertKey_keys _ _ _ (insertKey_keys _ _ _ hk))
  refine ⟨h1, ?_, ?_⟩
  · intro q hq
    rcases h2 q hq with h | h
    · left
      rcases insertKey_mem _ _ _ q h with h | h
      · exact Or.inr (Or.inl h)
      · rcases insertKey_mem _ _ _ q h with h | h
        · exact Or.inl h
        · exact Or.inr (Or.inr h)
    · exact Or.inr h
  · intro v
    have := h3 v
    simp only [lookup_insertKey] at this
    exact this

/-- Points at targets: the container has the points and the weights, and empty variables for all states, targets and points; data that is given fits to the sizes. -/
theorem C68_tpoints (coord : ℕ → V) (nan : V) (n nt np : ℕ) (tp tw : Arr V) (htp : tp.shape = [n, nt, np, 3]) (htw : tw.shape = [np])
    (data : List (String × Entry V)) (hk : (data.map Prod.fst).Nodup) (vs : List String) (hvs : "targets" ∉ vs ∧ "tpoint_weights" ∉ vs)
    (hdata : ∀ p ∈ data, ∃ l, p.2.dims = some l ∧ p.2.arr.shape = l.map (tpointSizes n nt np) ∧ p.1 ≠ "targets" ∧ p.1 ≠ "tpoint_weights" ∧
      (p.1 ∈ l ∨ ["state", "target", "target_point"] <+: l)) (i0 : Option ℕ) :
    ∃ d, (fromTPoints coord nan tp tw data vs i0).2 = .ok d ∧ d.i0 = i0 ∧ d.size "state" = some n ∧ nTargets d = some nt ∧ nTPoints d = some np ∧
      d.entries.lookup "targets" = some ⟨tp, some ["state", "target", "target_point", "xyh"]⟩ ∧ d.entries.lookup "tpoint_weights" = some ⟨tw, some ["target_point"]⟩ ∧
      (∀ v ∈ vs, d.entries.lookup v = some ⟨⟨[n, nt, np], fun _ => nan⟩, some ["state", "target", "target_point"]⟩) ∧
      (∀ v e, v ∉ vs → data.lookup v = some e → d.entries.lookup v = some e) := by
  obtain ⟨h1, h2, h3⟩ := pointDict_spec nan tp tw vs data hk
  have hT : (pointDict nan tp tw vs data).lookup "targets" = some ⟨tp, some ["state", "target", "target_point", "xyh"]⟩ := by
    rw [h3, if_neg hvs.1, if_neg (by decide), if_pos rfl]
  have hW : (pointDict nan tp tw vs data).lookup "tpoint_weights" = some ⟨tw, some ["target_point"]⟩ := by
    rw [h3, if_neg hvs.2, if_pos rfl]
  have hgood : ∀ q ∈ pointDict nan tp tw vs data, Good (tpointSizes n nt np) q ∧ ClassOk .target (tpointSizes n nt np) q := by
    intro q hq
    rcases h2 q hq with (rfl | rfl | h) | ⟨hv, h⟩
    · exact ⟨⟨_, rfl, Or.inl (by simp [htp, tpointSizes])⟩, Or.inl ⟨rfl, rfl, by simp [tpointSizes]⟩⟩
    · exact ⟨⟨_, rfl, Or.inl (by simp [htw, tpointSizes])⟩, Or.inr (Or.inl ⟨rfl, rfl⟩)⟩
    · obtain ⟨l, a, b, c, e, f⟩ := hdata q h
      refine ⟨⟨l, a, Or.inl b⟩, Or.inr (Or.inr ⟨c, e, ?_⟩)⟩
      simpa [dimsOf, a] using f
    · refine ⟨⟨_, by rw [h], Or.inl (by rw [h]; simp [htp, tpointSizes])⟩, Or.inr (Or.inr ⟨?_, ?_, Or.inr (by rw [h]; simp [dimsOf])⟩)⟩
      · intro hq1; rw [hq1] at hv; exact hvs.1 hv
      · intro hq1; rw [hq1] at hv; exact hvs.2 hv
  obtain ⟨d, e1, e2, _, e4, _, e6, _⟩ := construct_good .target coord (tpointSizes n nt np) (pointDict nan tp tw vs data) ["state", "target"] i0 h1
    (fun q hq => (hgood q hq).1) (fun q hq => (hgood q hq).2) (by simp) (by intro _; rw [hT, hW]; exact ⟨rfl, rfl⟩)
  have hsz : ∀ c ∈ ["state", "target", "target_point", "xyh"], d.sizes.lookup c = some (tpointSizes n nt np c) := by
    intro c hc
    exact e6 _ (mem_of_lookup _ _ _ hT) (by simp [dimsOf, htp, tpointSizes]) c hc
  refine ⟨d, ?_, e2, ?_, ?_, ?_, e4 _ _ hT, e4 _ _ hW, ?_, ?_⟩
  · simp only [fromTPoints]
    rw [if_neg (by simp [htp])]
    exact e1
  · have := hsz "state" (by simp); simpa [Data.size, tpointSizes] using this
  · have := hsz "target" (by simp); simpa [nTargets, tpointSizes] using this
  · have := hsz "target_point" (by simp); simpa [nTPoints, tpointSizes] using this
  · intro v hv
    apply e4
    rw [h3, if_pos hv]
    simp [htp]
  · intro v e hv hd
    apply e4
    rw [h3, if_neg hv]
    obtain ⟨_, _, _, c, f, _⟩ := hdata _ (mem_of_lookup _ _ _ hd)
    rw [if_neg f, if_neg c]; exact hd

/-- Points, one for each target: the container has them as targets with one point of weight one. -/
theorem C68_points (coord : ℕ → V) (nan one : V) (n nt : ℕ) (p : Arr V) (hp : p.shape = [n, nt, 3]) (vs : List String)
    (hvs : "targets" ∉ vs ∧ "tpoint_weights" ∉ vs) (i0 : Option ℕ) :
    ∃ d e w, (fromPoints coord nan one p [] vs i0).2 = .ok d ∧ d.i0 = i0 ∧ d.size "state" = some n ∧ nTargets d = some nt ∧ nTPoints d = some 1 ∧
      d.entries.lookup "targets" = some e ∧ e.arr.shape = [n, nt, 1, 3] ∧ (∀ i j k, e.arr.val [i, j, 0, k] = p.val [i, j, k]) ∧
      d.entries.lookup "tpoint_weights" = some w ∧ w.arr.shape = [1] ∧ w.arr.val [0] = one ∧
      (∀ v ∈ vs, d.entries.lookup v = some ⟨⟨[n, nt, 1], fun _ => nan⟩, some ["state", "target", "target_point"]⟩) := by
  obtain ⟨d, h1, h2, h3, h4, h5, h6, h7, h8, _⟩ := C68_tpoints coord nan n nt 1 (pointAxis p) ⟨[1], fun _ => one⟩ (by simp [pointAxis, hp]) rfl [] (by simp) vs hvs
    (by simp) i0
  refine ⟨d, _, _, ?_, h2, h3, h4, h5, h6, by simp [pointAxis, hp], ?_, h7, rfl, rfl, h8⟩
  · simp only [fromTPoints] at h1
    rw [if_neg (by simp [pointAxis, hp])] at h1
    simp only [fromPoints]
    rw [if_neg (by simp [hp])]
    exact h1
  · intro i j k
    simp [pointAxis, List.eraseIdx]

/-- Points without three axes or three components are refused. -/
theorem C68_points_refused (coord : ℕ → V) (nan one : V) (p : Arr V) (data : List (String × Entry V)) (vs : List String) (i0 : Option ℕ)
    (h : ∀ n nt, p.shape ≠ [n, nt, 3]) : (fromPoints coord nan one p data vs i0).2 = .error .value ∧ (fromPoints coord nan one p data vs i0).1 = data := by
  have : p.shape.length ≠ 3 ∨ p.shape[2]? ≠ some 3 := by
    by_contra hc
    push Not at hc
    obtain ⟨h1, h2⟩ := hc
    match hs : p.shape, h1 with
    | [a, b, c], _ =>
      rw [hs] at h2; simp at h2; subst h2
      exact h a b hs
  simp only [fromPoints, if_pos this]
  exact ⟨trivial, trivial⟩

/-- The dictionary of the caller is changed: afterwards it has the points and their weights, also if the call is refused later. -/
theorem C68_points_caller_changed (coord : ℕ → V) (nan one : V) (n nt : ℕ) (p : Arr V) (hp : p.shape = [n, nt, 3]) (data : List (String × Entry V))
    (hk : (data.map Prod.fst).Nodup) (i0 : Option ℕ) :
    ((fromPoints coord nan one p data [] i0).1.lookup "targets").map (fun e => e.arr.shape) = some [n, nt, 1, 3] := by
  simp only [fromPoints]
  rw [if_neg (by simp [hp])]
  obtain ⟨_, _, h3⟩ := pointDict_spec nan (pointAxis p) ⟨[1], fun _ => one⟩ [] data hk
  simp only [h3]
  simp [pointAxis, hp]

/-- Weights whose number is not the number of points are refused, if there are at least two points per target. What is missing: for one point per target they are not,
see below. -/
theorem C68_tweights_refused_partial (coord : ℕ → V) (nan : V) (n nt np m : ℕ) (tp tw : Arr V) (htp : tp.shape = [n, nt, np, 3]) (hnp : np ≠ 1) (htw : tw.shape = [m])
    (hm : m ≠ np) (i0 : Option ℕ) : ∃ x, (fromTPoints coord nan tp tw [] [] i0).2 = .error x := by
  simp only [fromTPoints]
  rw [if_neg (by simp [htp])]
  have hdict : pointDict nan tp tw [] [] = [("targets", ⟨tp, some ["state", "target", "target_point", "xyh"]⟩), ("tpoint_weights", ⟨tw, some ["target_point"]⟩)] := rfl
  rw [hdict]
  obtain ⟨s', c1, c2, c3, c4, c5⟩ := checks_good (V := V) .target (tpointSizes n nt np)
    { entries := [("targets", ⟨tp, some ["state", "target", "target_point", "xyh"]⟩), ("tpoint_weights", ⟨tw, some ["target_point"]⟩)], sizes := [],
      loopDims := ["state", "target"], i0 := i0 } ("targets", ⟨tp, some ["state", "target", "target_point", "xyh"]⟩) rfl
    ⟨_, rfl, Or.inl (by simp [htp, tpointSizes])⟩ (Or.inl ⟨rfl, rfl, by simp [tpointSizes]⟩) (by intro c m h; simp at h) (by intro _; exact ⟨rfl, rfl⟩)
  have hs : s'.lookup "target_point" = some np := by
    have := c5 (by simp [dimsOf, htp, tpointSizes]) "target_point" (by simp [dimsOf])
    simpa [tpointSizes] using this
  simp only at c1
  simp only [construct, checkLoop, c1]
  have hkept : kept ["state", "target"] ["target_point"] tw = .ok tw := by simp [kept, htw]
  simp only [checks, entryChecks, hkept, htw, checkSizes, hs, if_neg hnp]
  by_cases h1 : m = 1
  · subst h1
    simp only [if_true, classCheck, targetCheck, lookup_insertKey, hs, htw]
    simp [Ne.symm hnp]
  · simp only [if_neg h1, ne_eq, not_false_eq_true, if_true, Ne.symm hm]
    exact ⟨_, rfl⟩

/-! ### Means over the points of a target -/

section Mean
variable {K : Type} [Field K]

/-- The mean is the weighted sum over the points, for every state, target and further index. -/
theorem C68_mean (a w : Arr K) (ns nt np : ℕ) (r : List ℕ) (ha : a.shape = ns :: nt :: np :: r) (hw : w.shape = [np]) :
    ∃ b, tpointMean a w = .ok b ∧ b.shape = ns :: nt :: r ∧ ∀ s t x, b.val (s :: t :: x) = ∑ p ∈ Finset.range np, a.val (s :: t :: p :: x) * w.val [p] := by
  simp only [tpointMean, ha, hw, true_or, if_true]
  refine ⟨_, rfl, rfl, ?_⟩
  intro s t x
  by_cases h : np = 1
  · subst h; simp
  · simp [h]

/-- The mean of a constant is that constant, if the weights sum up to one. -/
theorem C68_mean_const (a w : Arr K) (ns nt np : ℕ) (r : List ℕ) (ha : a.shape = ns :: nt :: np :: r) (hw : w.shape = [np])
    (h1 : ∑ p ∈ Finset.range np, w.val [p] = 1) (s t : ℕ) (x : List ℕ) (c : K) (hc : ∀ p < np, a.val (s :: t :: p :: x) = c) :
    ∃ b, tpointMean a w = .ok b ∧ b.val (s :: t :: x) = c := by
  obtain ⟨b, hb, _, hv⟩ := C68_mean a w ns nt np r ha hw
  refine ⟨b, hb, ?_⟩
  rw [hv, Finset.sum_congr rfl (fun p hp => by rw [hc p (Finset.mem_range.1 hp)]), ← Finset.mul_sum, h1, mul_one]

/-- The mean of a target with one point of weight one is the value at that point. -/
theorem C68_mean_one (a w : Arr K) (ns nt : ℕ) (r : List ℕ) (ha : a.shape = ns :: nt :: 1 :: r) (hw : w.shape = [1]) (h1 : w.val [0] = 1) (s t : ℕ) (x : List ℕ) :
    ∃ b, tpointMean a w = .ok b ∧ b.val (s :: t :: x) = a.val (s :: t :: 0 :: x) := by
  refine C68_mean_const a w ns nt 1 r ha hw (by simpa using h1) s t x _ ?_
  intro p hp
  have : p = 0 := by omega
  rw [this]

/-- The mean is linear in the values. -/
theorem C68_mean_linear (a a' w b b' c : Arr K) (ns nt np : ℕ) (r : List ℕ) (ha : a.shape = ns :: nt :: np :: r) (ha' : a'.shape = ns :: nt :: np :: r) (hw : w.shape = [np])
    (k : K) (hb : tpointMean a w = .ok b) (hb' : tpointMean a' w = .ok b')
    (hc : tpointMean ⟨a.shape, fun idx => a.val idx + k * a'.val idx⟩ w = .ok c) (s t : ℕ) (x : List ℕ) :
    c.val (s :: t :: x) = b.val (s :: t :: x) + k * b'.val (s :: t :: x) := by
  obtain ⟨b1, h1, _, v1⟩ := C68_mean a w ns nt np r ha hw
  obtain ⟨b2, h2, _, v2⟩ := C68_mean a' w ns nt np r ha' hw
  obtain ⟨c1, h3, _, v3⟩ := C68_mean ⟨a.shape, fun idx => a.val idx + k * a'.val idx⟩ w ns nt np r ha hw
  rw [hb] at h1; rw [hb'] at h2; rw [hc] at h3
  simp only [Except.ok.injEq] at h1 h2 h3
  subst h1; subst h2; subst h3
  rw [v1, v2, v3, Finset.mul_sum, ← Finset.sum_add_distrib]
  apply Finset.sum_congr rfl
  intro p _
  ring

/-- For weights that are not negative and sum up to one, the mean lies between bounds of the values. -/
theorem C68_mean_between [LinearOrder K] [IsStrictOrderedRing K] (a w : Arr K) (ns nt np : ℕ) (r : List ℕ) (ha : a.shape = ns :: nt :: np :: r) (hw : w.shape = [np])
    (h1 : ∑ p ∈ Finset.range np, w.val [p] = 1) (h0 : ∀ p < np, 0 ≤ w.val [p]) (s t : ℕ) (x : List ℕ) (lo hi : K)
    (hlo : ∀ p < np, lo ≤ a.val (s :: t :: p :: x)) (hhi : ∀ p < np, a.val (s :: t :: p :: x) ≤ hi) :
    ∃ b, tpointMean a w = .ok b ∧ lo ≤ b.val (s :: t :: x) ∧ b.val (s :: t :: x) ≤ hi := by
  obtain ⟨b, hb, _, hv⟩ := C68_mean a w ns nt np r ha hw
  refine ⟨b, hb, ?_, ?_⟩
  · rw [hv]
    calc lo = ∑ p ∈ Finset.range np, lo * w.val [p] := by rw [← Finset.mul_sum, h1, mul_one]
      _ ≤ _ := Finset.sum_le_sum (fun p hp => mul_le_mul_of_nonneg_right (hlo p (Finset.mem_range.1 hp)) (h0 p (Finset.mem_range.1 hp)))
  · rw [hv]
    calc _ ≤ ∑ p ∈ Finset.range np, hi * w.val [p] :=
          Finset.sum_le_sum (fun p hp => mul_le_mul_of_nonneg_right (hhi p (Finset.mem_range.1 hp)) (h0 p (Finset.mem_range.1 hp)))
      _ = hi := by rw [← Finset.mul_sum, h1, mul_one]

/-- Weights of another number are refused, unless one of the two numbers is one. -/
theorem C68_mean_refused (a w : Arr K) (ns nt np nw : ℕ) (r : List ℕ) (ha : a.shape = ns :: nt :: np :: r) (hw : w.shape = [nw]) (h : np ≠ nw) (h1 : np ≠ 1) (h2 : nw ≠ 1) :
    tpointMean a w = .error .value := by
  simp [tpointMean, ha, hw, h, h1, h2]

end Mean

/-! ### Examples -/

/-- outcome of a construction, in a form that can be computed -/
def shapes : Except ChunkData.Err (Data ℕ) → Except ChunkData.Err (List (String × List ℕ) × List (String × ℕ))
  | .ok d => .ok (view d)
  | .error x => .error x

/-- model data with four states, a table of three levels -/
def exModel : DS ℕ := ⟨[("state", ⟨⟨[4], fun i => 100 + i.headD 0⟩, some ["state"]⟩)], [("tab", ⟨⟨[4, 3], fun i => 10 * i.headD 0 + i.getD 1 0⟩, some ["state", "level"]⟩)]⟩

/-- farm data with four states and two turbines -/
def exFarm : DS ℕ := ⟨[], [("WS", ⟨⟨[4, 2], fun i => 10 * i.headD 0 + i.getD 1 0⟩, some ["state", "turbine"]⟩), ("weight", ⟨⟨[4], fun i => i.headD 0⟩, some ["state"]⟩)]⟩

/-- five points, the same for all states -/
def exPoints : Arr ℕ := ⟨[5, 3], fun i => 10 * i.headD 0 + i.getD 1 0⟩

/-- the sizes of the examples -/
def exSize (c : String) : ℕ := if c = "state" then 4 else if c = "turbine" then 2 else 3

/-- the datasets meet the hypotheses -/
example : DSOk exSize exModel ∧ DSOk exSize exFarm ∧ FarmVars exFarm ∧ (∃ p ∈ exFarm.coords ++ exFarm.vars, "turbine" ∈ dimsOf p.2) := by
  refine ⟨⟨by decide, ?_, ?_, ?_, ?_⟩, ⟨by decide, ?_, ?_, ?_, ?_⟩, ?_, ?_⟩
  · intro p hp
    simp only [exModel, List.cons_append, List.nil_append, List.mem_cons, List.not_mem_nil, or_false] at hp
    rcases hp with rfl | rfl
    · exact ⟨["state"], rfl, by decide, by decide⟩
    · exact ⟨["state", "level"], rfl, by decide, by decide⟩
  · intro p hp
    simp only [exModel, List.mem_cons, List.not_mem_nil, or_false] at hp
    subst hp; rfl
  · intro p hp
    simp only [exModel, List.mem_cons, List.not_mem_nil, or_false] at hp
    subst hp; simp [dimsOf]
  · intro p hp
    simp only [exModel, List.mem_cons, List.not_mem_nil, or_false] at hp
    subst hp; decide
  · intro p hp
    simp only [exFarm, List.nil_append, List.mem_cons, List.not_mem_nil, or_false] at hp
    rcases hp with rfl | rfl
    · exact ⟨["state", "turbine"], rfl, by decide, by decide⟩
    · exact ⟨["state"], rfl, by decide, by decide⟩
  · intro p hp; simp [exFarm] at hp
  · intro p hp
    simp only [exFarm, List.mem_cons, List.not_mem_nil, or_false] at hp
    rcases hp with rfl | rfl <;> simp [dimsOf]
  · intro p hp
    simp only [exFarm, List.mem_cons, List.not_mem_nil, or_false] at hp
    rcases hp with rfl | rfl <;> decide
  · intro p hp
    simp only [exFarm, List.mem_cons, List.not_mem_nil, or_false] at hp
    rcases hp with rfl | rfl
    · right; right; simp [dimsOf]
    · right; left; rfl
  · exact ⟨_, List.mem_cons_self, by simp [dimsOf]⟩

/-- the input of the chunk of states 1 and 2 for points 3 and 4 -/
example : ∃ pd m f d, newPointData 1 exPoints none 4 = .ok pd ∧ chunkInput id 999 2 exModel exFarm (some pd) (1, 3) (3, 5) ["REWS"] = .ok [m, f, d] ∧
    view m = ([("state", [2]), ("tab", [2, 3]), ("level", [3])], [("state", 2), ("level", 3)]) ∧
    view f = ([("WS", [2, 2]), ("weight", [2, 1]), ("state", [2]), ("turbine", [2])], [("state", 2), ("turbine", 2)]) ∧
    view d = ([("targets", [2, 2, 1, 3]), ("tpoint_weights", [1]), ("target", [2]), ("state", [2]), ("REWS", [2, 2, 1]), ("target_point", [1]), ("xyh", [3])],
      [("state", 2), ("target", 2), ("target_point", 1), ("xyh", 3)]) ∧
    (m.entries.lookup "state").map (fun e => [e.arr.val [0], e.arr.val [1]]) = some [101, 102] ∧
    (f.entries.lookup "WS").map (fun e => [e.arr.val [0, 0], e.arr.val [1, 1]]) = some [10, 21] ∧
    (d.entries.lookup "targets").map (fun e => [e.arr.val [0, 0, 0, 0], e.arr.val [1, 1, 0, 2]]) = some [30, 42] ∧ targetsI0 d = some 3 :=
  ⟨_, _, _, _, rfl, rfl, rfl, rfl, rfl, rfl, rfl, rfl, rfl⟩

/-! ### What does not hold -/

/-- Acceptance of target data depends on the order of the entries: points for one state, with a variable for five states. -/
theorem C68_order_matters :
    shapes (construct .target id [("targets", ⟨arr [1, 2, 1, 3], some ["state", "target", "target_point", "xyh"]⟩), ("tpoint_weights", ⟨arr [1], some ["target_point"]⟩),
      ("WS", ⟨arr [5, 2, 1], some ["state", "target", "target_point"]⟩)] ["state", "target"] none) =
      .ok ([("targets", [1, 2, 1, 3]), ("tpoint_weights", [1]), ("WS", [5, 2, 1]), ("state", [5]), ("target", [2]), ("target_point", [1]), ("xyh", [3])],
        [("state", 5), ("target", 2), ("target_point", 1), ("xyh", 3)]) ∧
    shapes (construct .target id [("WS", ⟨arr [5, 2, 1], some ["state", "target", "target_point"]⟩), ("targets", ⟨arr [1, 2, 1, 3], some ["state", "target", "target_point", "xyh"]⟩),
      ("tpoint_weights", ⟨arr [1], some ["target_point"]⟩)] ["state", "target"] none) = .error .value := ⟨rfl, rfl⟩

/-- Four weights are accepted for one point per target, and the container then reports four points per target. -/
theorem C68_tweights_accepted_not : ∃ d, (fromTPoints id 999 (arr [2, 3, 1, 3]) (arr [4]) [] [] none).2 = .ok d ∧ nTPoints d = some 4 ∧
    (d.entries.lookup "targets").map (·.arr.shape) = some [2, 3, 1, 3] := ⟨_, rfl, rfl, rfl⟩

/-- A farm variable with one value per state is refused, unless it is the weight. -/
theorem C68_state_variable_refused : ∃ m, chunkModel id exModel (0, 2) = .ok m ∧
    shapes (chunkFarm id 999 m ⟨[], exFarm.vars ++ [("P", ⟨arr [4], some ["state"]⟩)]⟩ 2 (0, 2) none) = .error .value := ⟨_, rfl, rfl⟩

/-- Point data with one weight per state is refused: it is given a turbine dimension. -/
theorem C68_point_weight_refused : ∃ m pd, chunkModel id exModel (0, 2) = .ok m ∧ newPointData 1 exPoints none 4 = .ok pd ∧
    shapes (chunkPoints id 999 m ⟨[], pd.vars ++ [("weight", ⟨arr [4], some ["state"]⟩)]⟩ (0, 2) (0, 5) []) = .error .value := ⟨_, _, rfl, rfl, rfl⟩

/-- A coordinate that depends on the states, but is not called `state`, is not cut: chunks of two states are refused, and chunks of one state report all states. -/
theorem C68_other_coordinate_not_cut :
    shapes (chunkModel id ⟨exModel.coords ++ [("time", ⟨arr [4], some ["state"]⟩)], exModel.vars⟩ (0, 2)) = .error (.base .valueError) ∧
    ∃ d, chunkModel id ⟨exModel.coords ++ [("time", ⟨arr [4], some ["state"]⟩)], exModel.vars⟩ (0, 1) = .ok d ∧ d.size "state" = some 4 ∧
      (d.entries.lookup "state").map (·.arr.shape) = some [1] := ⟨rfl, _, rfl, rfl, rfl⟩

/-- Model data without states: farm data of the chunk is refused, although it has states itself. -/
theorem C68_model_without_states : ∃ m, chunkModel id ⟨[], []⟩ (0, 2) = .ok m ∧ shapes (chunkFarm id 999 m exFarm 2 (0, 2) none) = .error .key := ⟨_, rfl, rfl⟩

/-- With a coordinate for the targets, the index of the first target is its label, not its position. -/
theorem C68_targets_i0_label : ∃ m pd d, chunkModel id exModel (0, 2) = .ok m ∧ newPointData 1 exPoints none 4 = .ok pd ∧
    chunkPoints id 999 m ⟨[("target", ⟨⟨[5], fun i => 70 + i.headD 0⟩, some ["target"]⟩)], pd.vars⟩ (0, 2) (3, 5) [] = .ok d ∧ targetsI0 d = some 73 :=
  ⟨_, _, _, rfl, rfl, rfl, rfl⟩

/-! ### Combined positions -/

/-- The combined positions: if x, y and height have the same dimensions and there is no combined entry yet, then every accepted container has one, and its three
components are x, y and height; the three entries stay. -/
theorem C68_positions (d d' : Data V) (x y h : Entry V) (l : List String) (h0 : d.entries.lookup "txyh" = none) (hx : d.entries.lookup "X" = some x)
    (hy : d.entries.lookup "Y" = some y) (hh : d.entries.lookup "H" = some h) (dx : x.dims = some l) (dy : y.dims = some l) (dh : h.dims = some l)
    (hok : stack d = .ok d') :
    ∃ e, d'.entries.lookup "txyh" = some e ∧ e.dims = some (l ++ ["xyh"]) ∧ e.arr.shape = x.arr.shape ++ [3] ∧
      (∀ idx, e.arr.val (idx ++ [0]) = x.arr.val idx ∧ e.arr.val (idx ++ [1]) = y.arr.val idx ∧ e.arr.val (idx ++ [2]) = h.arr.val idx) ∧
      d'.entries.lookup "X" = some x ∧ d'.entries.lookup "Y" = some y ∧ d'.entries.lookup "H" = some h ∧ d'.sizes = d.sizes := by
  simp only [stack, h0, hx, hy, hh, dx, dy, dh, and_self, if_true] at hok
  split at hok
  · simp only [Except.ok.injEq] at hok
    subst hok
    refine ⟨⟨stackLast x.arr y.arr h.arr, some (l ++ ["xyh"])⟩, by simp [lookup_insertKey], rfl, rfl, ?_, by simp [lookup_insertKey, hx], by simp [lookup_insertKey, hy],
      by simp [lookup_insertKey, hh], rfl⟩
    intro idx
    simp [stackLast]
  · simp at hok

/-- Positions of different shapes are refused. -/
theorem C68_positions_refused (d : Data V) (x y h : Entry V) (l : List String) (h0 : d.entries.lookup "txyh" = none) (hx : d.entries.lookup "X" = some x)
    (hy : d.entries.lookup "Y" = some y) (hh : d.entries.lookup "H" = some h) (dx : x.dims = some l) (dy : y.dims = some l) (dh : h.dims = some l)
    (hne : x.arr.shape ≠ y.arr.shape ∨ x.arr.shape ≠ h.arr.shape) : stack d = .error .value := by
  simp only [stack, h0, hx, hy, hh, dx, dy, dh, and_self, if_true]
  rw [if_neg]
  rintro ⟨a, b⟩
  rcases hne with hne | hne
  · exact hne a
  · exact hne b

/-- a case: farm data with positions of three turbines -/
example : ∃ d, construct .farm id [("X", ⟨arr [2, 3], some ["state", "turbine"]⟩), ("Y", ⟨⟨[2, 3], fun i => 10 * i.getD 1 0⟩, some ["state", "turbine"]⟩),
    ("H", ⟨⟨[2, 3], fun _ => 100⟩, some ["state", "turbine"]⟩)] ["state"] (some 7) = .ok d ∧ (d.entries.lookup "txyh").map (fun e => e.arr.shape) = some [2, 3, 3] ∧
    (d.entries.lookup "txyh").map (fun e => [e.arr.val [1, 2, 0], e.arr.val [1, 2, 1], e.arr.val [1, 2, 2]]) = some [1, 20, 100] := ⟨_, rfl, rfl, rfl⟩

/-- a case: the forms are those of a container that is constructed and filled -/
example : ∃ d d', construct .farm id [("WS", ⟨arr [2, 3], some ["state", "turbine"]⟩)] ["state"] (some 7) = .ok d ∧
    addTo .farm id d "P" ⟨arr [2, 3], some ["state", "turbine"]⟩ = .ok d' ∧ (∃ x, addTo .farm id d "P" ⟨arr [2], some ["state"]⟩ = .error x) ∧ d'.size "turbine" = some 3 :=
  ⟨_, _, rfl, rfl, ⟨_, rfl⟩, rfl⟩

/-! ### Refused datasets -/

/-- A dataset with a variable whose states are not the first dimension is refused, by all three containers. -/
theorem C68_states_not_first (k : Kind) (coord : ℕ → V) (ds : DS V) (w : Option (ℕ × ℕ)) (cb : List (String × Entry V) → Except ChunkData.Err (List (String × Entry V)))
    (ld : List String) (i0 : Option ℕ) (p : String × Entry V) (hp : p ∈ ds.vars) (hs : "state" ∈ dimsOf p.2) (hf : (dimsOf p.2).head? ≠ some "state") :
    fromDataset k coord ds w cb ld i0 = .error .value := by
  have key : ∀ l : List (String × Entry V), p ∈ l → varsIn w l = .error .value := by
    intro l
    induction l with
    | nil => intro h; simp at h
    | cons q l ih =>
      intro h
      have hq : ∀ x, varIn w q = .error x → x = .value := by
        intro x hx
        unfold varIn at hx
        split at hx
        · split at hx
          · simpa using hx.symm
          · split at hx <;> simp at hx
        · simp at hx
      rcases List.mem_cons.1 h with rfl | h
      · have : varIn w p = .error .value := by
          unfold varIn
          rw [if_pos hs, if_pos hf]
        simp only [varsIn, this]
      · simp only [varsIn]
        cases hv : varIn w q with
        | error x => rw [hq x hv]
        | ok q' => simp only [ih h]
  simp only [fromDataset, key ds.vars hp]

/-- Point data with a variable of targets that does not start with states, targets and points is refused. -/
theorem C68_targets_not_second (w : ℕ × ℕ) (l : List (String × Entry V)) (p : String × Entry V) (hp : p ∈ l) (ht : "target" ∈ dimsOf p.2) (h1 : dimsOf p.2 ≠ ["target"])
    (h2 : ¬ ["state", "target", "target_point"] <+: dimsOf p.2) : targetsIn w l = .error .value := by
  induction l with
  | nil => simp at hp
  | cons q l ih =>
    have hq : ∀ x, targetIn w q = .error x → x = .value := by
      intro x hx
      unfold targetIn at hx
      split at hx
      · split at hx
        · simp at hx
        · split at hx
          · simpa using hx.symm
          · simp at hx
      · simp at hx
    rcases List.mem_cons.1 hp with rfl | hp
    · have : targetIn w p = .error .value := by
        unfold targetIn
        rw [if_pos ht, if_neg h1, if_pos]
        right
        exact fun h => h2 (take_prefix 3 h)
      simp only [targetsIn, this]
    · simp only [targetsIn]
      cases hv : targetIn w q with
      | error x => rw [hq x hv]
      | ok q' => simp only [ih hp]

/-- a case -/
example : shapes (fromDataset .farm id ⟨[], [("WS", ⟨arr [2, 4], some ["turbine", "state"]⟩)]⟩ (some (0, 2)) .ok ["state"] none) = .error .value ∧
    (targetsIn (0, 2) [("WS", ⟨arr [4, 3], some ["state", "target"]⟩)]).toOption.isNone := ⟨rfl, rfl⟩

end

end Foxes.Props.ChunkData
