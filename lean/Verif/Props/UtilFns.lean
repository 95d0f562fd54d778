import Verif.Model.UtilFns
import Mathlib.Tactic
import Mathlib.Logic.Relation
import Mathlib.Analysis.SpecialFunctions.Log.Basic
import Mathlib.Analysis.SpecialFunctions.Sqrt
import Mathlib.Analysis.SpecialFunctions.ExpDeriv
/-
Property C86: classes by name, python strings, regularised root.
-/
namespace Foxes.Props.UtilFns
open Foxes.UtilFns

/-! ### Classes by name -/

/-- derived, directly or not -/
def Derived {C : Type} (subs : C → List C) (base d : C) : Prop := Relation.TransGen (fun a b => b ∈ subs a) base d

theorem mem_allSubs {C : Type} (subs : C → List C) (rank : C → ℕ) (hr : ∀ c, ∀ d ∈ subs c, rank d < rank c) (n : ℕ) :
    ∀ base, rank base ≤ n → ∀ d, d ∈ allSubs subs n base ↔ Derived subs base d := by
  induction n with
  | zero =>
    intro base hb d
    simp only [allSubs, List.not_mem_nil, false_iff]
    intro h
    obtain ⟨b, hb', -⟩ := Relation.TransGen.head'_iff.1 h
    have := hr base b hb'
    omega
  | succ n ih =>
    intro base hb d
    rw [allSubs, List.mem_append, List.mem_flatMap]
    unfold Derived
    rw [Relation.TransGen.head'_iff]
    constructor
    · rintro (h | ⟨c, hc, hd⟩)
      · exact ⟨d, h, Relation.ReflTransGen.refl⟩
      · exact ⟨c, hc, ((ih c (by have := hr base c hc; omega) d).1 hd).to_reflTransGen⟩
    · rintro ⟨c, hc, hd⟩
      rcases Relation.reflTransGen_iff_eq_or_transGen.1 hd with h | h
      · subst h; exact Or.inl hc
      · exact Or.inr ⟨c, hc, (ih c (by have := hr base c hc; omega) d).2 h⟩

/-- **C86_found.** For every class hierarchy without cycles: what is returned is derived from the base class, directly or not, and has this name; it is a key error exactly if there is no such class; no name gives nothing. -/
theorem C86_found {C : Type} [DecidableEq C] (subs : C → List C) (rank : C → ℕ) (hr : ∀ c, ∀ d ∈ subs c, rank d < rank c) (nameOf : C → String)
    (order : List C → List C) (ho : ∀ l, (order l).Perm l) (base : C) (depth : ℕ) (hd : rank base ≤ depth) (s : String) :
    newCls subs depth nameOf order base none = .ok none ∧
    newCls subs depth nameOf order base (some s) ≠ .ok none ∧
    (∀ c, newCls subs depth nameOf order base (some s) = .ok (some c) → Derived subs base c ∧ nameOf c = s) ∧
    ((∃ e, newCls subs depth nameOf order base (some s) = .error e) ↔ ∀ c, Derived subs base c → nameOf c ≠ s) ∧
    (∀ e, newCls subs depth nameOf order base (some s) = .error e → e = .key) := by
  have hm : ∀ c, c ∈ order (allSubs subs depth base).dedup ↔ Derived subs base c := by
    intro c
    rw [(ho _).mem_iff, List.mem_dedup, mem_allSubs subs rank hr depth base hd]
  refine ⟨rfl, ?_⟩
  unfold newCls
  simp only
  cases hf : (order (allSubs subs depth base).dedup).find? fun c => nameOf c = s with
  | none =>
    rw [List.find?_eq_none] at hf
    refine ⟨by simp, by simp, ?_, by simp⟩
    simp only [Except.error.injEq, exists_eq', true_iff]
    intro c hc hn
    have := hf c ((hm c).2 hc)
    simp [hn] at this
  | some c =>
    have h1 := List.mem_of_find?_eq_some hf
    have h2 := List.find?_some hf
    simp at h2
    refine ⟨by simp, ?_, ?_, by simp⟩
    · intro c' h; simp at h; subst h; exact ⟨(hm c).1 h1, h2⟩
    · constructor
      · rintro ⟨e, he⟩; cases he
      · intro h; exact absurd h2 (h c ((hm c).1 h1))

/-- **C86_unique.** A class whose name no other derived class has is found, whatever the order of the set. -/
theorem C86_unique {C : Type} [DecidableEq C] (subs : C → List C) (rank : C → ℕ) (hr : ∀ c, ∀ d ∈ subs c, rank d < rank c) (nameOf : C → String)
    (order : List C → List C) (ho : ∀ l, (order l).Perm l) (base : C) (depth : ℕ) (hd : rank base ≤ depth) (c : C) (hc : Derived subs base c)
    (hu : ∀ d, Derived subs base d → nameOf d = nameOf c → d = c) :
    newCls subs depth nameOf order base (some (nameOf c)) = .ok (some c) := by
  obtain ⟨-, h1, h2, h3, -⟩ := C86_found subs rank hr nameOf order ho base depth hd (nameOf c)
  cases h : newCls subs depth nameOf order base (some (nameOf c)) with
  | error e => exact absurd rfl (h3.1 ⟨e, h⟩ c hc)
  | ok o =>
    cases o with
    | none => exact absurd h h1
    | some d => obtain ⟨a, b⟩ := h2 d h; rw [hu d a b]

/-- **C86_base** (finding). The base class itself is not found by its name (unless a derived class has the same name). -/
theorem C86_base {C : Type} [DecidableEq C] (subs : C → List C) (rank : C → ℕ) (hr : ∀ c, ∀ d ∈ subs c, rank d < rank c) (nameOf : C → String)
    (order : List C → List C) (ho : ∀ l, (order l).Perm l) (base : C) (depth : ℕ) (hd : rank base ≤ depth) (hn : ∀ c, Derived subs base c → nameOf c ≠ nameOf base) :
    newCls subs depth nameOf order base (some (nameOf base)) = .error .key := by
  obtain ⟨-, -, -, h3, h4⟩ := C86_found subs rank hr nameOf order ho base depth hd (nameOf base)
  obtain ⟨e, he⟩ := h3.2 hn
  rw [he, h4 e he]

/-- **C86_ambiguous** (finding). If several derived classes have the name, any of them can be the result, depending on the order of the set. -/
theorem C86_ambiguous {C : Type} [DecidableEq C] (subs : C → List C) (rank : C → ℕ) (hr : ∀ c, ∀ d ∈ subs c, rank d < rank c) (nameOf : C → String)
    (base : C) (depth : ℕ) (hd : rank base ≤ depth) (c : C) (hc : Derived subs base c) :
    ∃ order : List C → List C, (∀ l, (order l).Perm l) ∧ newCls subs depth nameOf order base (some (nameOf c)) = .ok (some c) := by
  refine ⟨fun l => if c ∈ l then c :: l.erase c else l, ?_, ?_⟩
  · intro l
    by_cases h : c ∈ l
    · simp only [h, if_true]; exact (List.perm_cons_erase h).symm
    · simp [h]
  · have : c ∈ (allSubs subs depth base).dedup := by rw [List.mem_dedup, mem_allSubs subs rank hr depth base hd]; exact hc
    unfold newCls
    simp [this]

/-- a hierarchy: 0 is the base, 1 and 2 derived from it, 3 from 1 -/
example : newCls (fun c : ℕ => if c = 0 then [1, 2] else if c = 1 then [3] else []) 5 (fun c => if c = 3 then "X" else if c = 0 then "B" else "Y") id 0 (some "X") = .ok (some 3) := by decide +kernel
example : newCls (fun c : ℕ => if c = 0 then [1, 2] else if c = 1 then [3] else []) 5 (fun c => if c = 3 then "X" else if c = 0 then "B" else "Y") id 0 (some "B") = .error .key := by decide +kernel

/-! ### Python strings -/

variable {E : Type} (exec : List Char → E → E × Bool) (get : E → List Char → Option Py)

/-- a string that is a command: it starts with the indicator and has something after it -/
def IsCmd (ind : Char) (s : List Char) : Prop := ∃ x t, s = ind :: x :: t

/-- a command that asks for a value: there is another indicator -/
def AsksValue (ind : Char) (s : List Char) : Prop := ∃ a, s = ind :: a ∧ ind ∈ a

mutual
/-- no command anywhere -/
def Quiet (ind : Char) : Py → Prop
  | .str s => ¬IsCmd ind s
  | .other _ => True
  | .node _ es => QuietL ind es
def QuietL (ind : Char) : PyL → Prop
  | .nil => True
  | .cons _ v r => Quiet ind v ∧ QuietL ind r
end

mutual
/-- same structure: kinds and keys agree, and everything that does not ask for a value is the same -/
def SameBut (ind : Char) : Py → Py → Prop
  | .str s, r => AsksValue ind s ∨ r = .str s
  | .other n, r => r = .other n
  | .node k es, r => ∃ es', r = .node k es' ∧ SameButL ind es es'
def SameButL (ind : Char) : PyL → PyL → Prop
  | .nil, r => r = .nil
  | .cons key v r, l => ∃ v' r', l = .cons key v' r' ∧ SameBut ind v v' ∧ SameButL ind r r'
end

theorem execStr_quiet (ind nl : Char) (s : List Char) (h : ¬IsCmd ind s) (e : E) : execStr exec get ind nl s e = (e, .ok (.str s)) := by
  match s with
  | [] => rfl
  | [c] => simp [execStr]
  | c :: x :: t =>
    have : c ≠ ind := fun hc => h ⟨x, t, by rw [hc]⟩
    simp [execStr, this]

mutual
theorem execIn_quiet (ind : Char) (s : Py) : ∀ e : E, Quiet ind s → execIn exec get ind s e = (e, .ok s) := by
  intro e h
  match s with
  | .str s => rw [execIn]; exact execStr_quiet exec get ind ';' s h e
  | .other n => simp [execIn]
  | .node k es => rw [execIn, execL_quiet ind es e h]
theorem execL_quiet (ind : Char) (s : PyL) : ∀ e : E, QuietL ind s → execL exec get ind s e = (e, .ok s) := by
  intro e h
  match s with
  | .nil => simp [execL]
  | .cons key v r => rw [execL, execIn_quiet ind v e h.1]; simp only; rw [execL_quiet ind r e h.2]
end

/-- **C86_plain.** A structure in which no string is a command is returned unchanged, and nothing is executed. -/
theorem C86_plain (ind nl : Char) (own : Option E) (shared : E) (s : Py) (h : Quiet ind s) :
    execPython exec get ind nl own shared s = (own, shared, .ok s) := by
  match s with
  | .str s =>
    cases own with
    | none => simp [execPython, execStr_quiet exec get ind nl s h]
    | some o => simp [execPython, execStr_quiet exec get ind nl s h]
  | .other n => simp [execPython, execIn]
  | .node k es => simp only [execPython]; rw [execIn_quiet exec get ind _ shared h]

theorem execStr_same (ind nl : Char) (s : List Char) (e e' : E) (r : Py) (h : execStr exec get ind nl s e = (e', .ok r)) : AsksValue ind s ∨ r = .str s := by
  match s with
  | [] => simp [execStr] at h; right; exact h.2.symm
  | c :: a =>
    by_cases h1 : a = [] ∨ c ≠ ind
    · rw [execStr, if_pos h1] at h; simp at h; right; exact h.2.symm
    · rw [execStr, if_neg h1] at h
      by_cases h2 : ind ∉ a
      · rw [if_pos h2] at h
        rcases hx : exec a e with ⟨e1, (_ | _)⟩
        · simp [hx] at h
        · simp [hx] at h; right; exact h.2.symm
      · left
        push Not at h1 h2
        exact ⟨a, by rw [h1.2], h2⟩

mutual
theorem execIn_same (ind : Char) (s : Py) : ∀ (e e' : E) (r : Py), execIn exec get ind s e = (e', .ok r) → SameBut ind s r := by
  intro e e' r h
  match s with
  | .str s => rw [execIn] at h; exact execStr_same exec get ind ';' s e e' r h
  | .other n => simp [execIn] at h; exact h.2.symm
  | .node k es =>
    rcases hl : execL exec get ind es e with ⟨e1, (x | es')⟩
    · simp [execIn, hl] at h
    · simp [execIn, hl] at h
      exact ⟨es', h.2.symm, execL_same ind es e e1 es' hl⟩
theorem execL_same (ind : Char) (s : PyL) : ∀ (e e' : E) (r : PyL), execL exec get ind s e = (e', .ok r) → SameButL ind s r := by
  intro e e' r h
  match s with
  | .nil => simp [execL] at h; exact h.2.symm
  | .cons key v t =>
    rcases hv : execIn exec get ind v e with ⟨e1, (x | v')⟩
    · simp [execL, hv] at h
    · rcases hl : execL exec get ind t e1 with ⟨e2, (x | t')⟩
      · simp [execL, hv, hl] at h
      · simp [execL, hv, hl] at h
        exact ⟨v', t', h.2.symm, execIn_same ind v e e1 v' hv, execL_same ind t e1 e2 t' hl⟩
end

/-- **C86_shape.** If it succeeds, the result has the same structure: the same kinds, keys, numbers of elements; and everything that does not ask for a value is the same. In particular a command without a second indicator stays in the result as it was. -/
theorem C86_shape (ind nl : Char) (own own' : Option E) (shared shared' : E) (s r : Py) (h : execPython exec get ind nl own shared s = (own', shared', .ok r)) : SameBut ind s r := by
  match s with
  | .str s =>
    cases own with
    | none =>
      simp [execPython] at h
      exact execStr_same exec get ind nl s shared _ r h.2
    | some o =>
      simp [execPython] at h
      exact execStr_same exec get ind nl s o _ r (Prod.ext rfl h.2.2)
  | .other n => simp [execPython, execIn] at h; exact h.2.2.symm
  | .node k es =>
    simp only [execPython, Prod.mk.injEq] at h
    exact execIn_same exec get ind _ shared _ r (Prod.ext rfl h.2.2)

/-- **C86_value.** A string of the form %v%c1;c2;... runs the commands in order and gives the value of v afterwards; a failing command stops it; a missing v is a key error. -/
theorem C86_value (ind nl : Char) (v : List Char) (cs : List (List Char)) (hne : cs ≠ []) (hin : ind ≠ nl) (hv : ind ∉ v) (hc : ∀ c ∈ cs, ind ∉ c ∧ nl ∉ c) (e : E) :
    execStr exec get ind nl (ind :: (v ++ ind :: [nl].intercalate cs)) e =
      (match execAll exec cs e with
        | (e', false) => (e', .error .exec)
        | (e', true) => (e', match get e' v with | some x => .ok x | none => .error .key)) := by
  have hb : ind ∉ [nl].intercalate cs := by
    intro h
    rw [List.intercalate] at h
    obtain ⟨l, hl, hx⟩ := List.mem_flatten.1 h
    have : ∀ (cs : List (List Char)), (∀ c ∈ cs, ind ∉ c ∧ nl ∉ c) → ∀ l ∈ cs.intersperse [nl], ind ∉ l := by
      intro cs
      induction cs with
      | nil => intro _ l hl; simp at hl
      | cons c cs ih =>
        intro hc l hl
        cases cs with
        | nil => simp at hl; subst hl; exact (hc _ (by simp)).1
        | cons d ds =>
          rw [List.intersperse_cons_cons] at hl
          rcases List.mem_cons.1 hl with rfl | hl
          · exact (hc _ (by simp)).1
          · rcases List.mem_cons.1 hl with rfl | hl
            · simpa using hin
            · exact ih (fun c h => hc c (List.mem_cons_of_mem _ h)) l hl
    exact this cs hc l hl hx
  have hs : (v ++ ind :: [nl].intercalate cs).splitOn ind = [v, [nl].intercalate cs] := by
    rw [List.splitOn_append_cons_self_of_not_mem hv, List.splitOn_eq_singleton hb]
  rw [execStr, if_neg (by simp), if_neg (by simp), hs]
  simp only
  rw [List.splitOn_intercalate nl (fun l hl => (hc l hl).2) hne]
  rcases execAll exec cs e with ⟨e', (_ | _)⟩
  · rfl
  · simp only
    cases get e' v <;> rfl

/-- **C86_statement.** A command without a second indicator is run; the string itself is the result. -/
theorem C86_statement (ind nl : Char) (a : List Char) (ha : a ≠ []) (hn : ind ∉ a) (e : E) :
    execStr exec get ind nl (ind :: a) e = ((exec a e).1, if (exec a e).2 then .ok (.str (ind :: a)) else .error .exec) := by
  rw [execStr, if_neg (by simp [ha]), if_pos hn]
  rcases exec a e with ⟨e', (_ | _)⟩ <;> simp

/-- **C86_many.** With more than two indicators it is a value error, and nothing is run. -/
theorem C86_many (ind nl : Char) (a b c : List Char) (ha : ind ∉ a) (hb : ind ∉ b) (e : E) :
    execStr exec get ind nl (ind :: (a ++ ind :: (b ++ ind :: c))) e = (e, .error .value) := by
  rw [execStr, if_neg (by simp), if_neg (by simp), List.splitOn_append_cons_self_of_not_mem ha, List.splitOn_append_cons_self_of_not_mem hb]
  cases h : c.splitOn ind with
  | nil => exact absurd h (List.splitOn_ne_nil _ _)
  | cons x l => rfl

/-- **C86_args_dropped** (finding). For a list, tuple or dictionary the name space and the new line sign of the caller have no effect: the shared name space, which survives from call to call, is used. -/
theorem C86_args_dropped (ind nl nl' : Char) (own own' : Option E) (shared : E) (k : Kind) (es : PyL) :
    (execPython exec get ind nl own shared (.node k es)).2 = (execPython exec get ind nl' own' shared (.node k es)).2 ∧
    (execPython exec get ind nl own shared (.node k es)).1 = own := ⟨rfl, rfl⟩

/-- **C86_left_to_right.** The elements of a structure are treated in order, each in the name space that the ones before left behind; the first failure ends it. -/
theorem C86_left_to_right (ind : Char) (key : ℕ) (v : Py) (r : PyL) (e : E) :
    (∀ e1 x, execIn exec get ind v e = (e1, .error x) → execL exec get ind (.cons key v r) e = (e1, .error x)) ∧
    (∀ e1 v', execIn exec get ind v e = (e1, .ok v') →
      (execL exec get ind (.cons key v r) e).1 = (execL exec get ind r e1).1 ∧
      ∀ r', (execL exec get ind r e1).2 = .ok r' → (execL exec get ind (.cons key v r) e).2 = .ok (.cons key v' r')) := by
  constructor
  · intro e1 x h; rw [execL, h]
  · intro e1 v' h
    rw [execL, h]
    simp only
    rcases hl : execL exec get ind r e1 with ⟨e2, (x | r')⟩ <;> simp

/-- **C86_own.** A string with a name space of the caller leaves the shared one alone. -/
theorem C86_own (ind nl : Char) (o shared : E) (s : List Char) : (execPython exec get ind nl (some o) shared (.str s)).2.1 = shared := rfl

/-- the hypotheses can be met: "%x%a;b" with commands that are recorded -/
example : execStr (E := List (List Char)) (fun c e => (e ++ [c], true)) (fun e _ => some (.other e.length)) '%' ';' "%x%a;b".toList [] = ([['a'], ['b']], .ok (.other 2)) := by
  have := C86_value (E := List (List Char)) (fun c e => (e ++ [c], true)) (fun e _ => some (.other e.length)) '%' ';' ['x'] [['a'], ['b']] (by simp) (by decide) (by decide) (by decide) []
  simpa [execAll, List.intercalate] using this

/-! ### Regularised root -/

theorem inner_eq (x0 x : ℝ) (h : 0 < x0) : Real.exp ((x - x0 * (1 - Real.log x0)) / x0) = x0 * Real.exp ((x - x0) / x0) := by
  have : (x - x0 * (1 - Real.log x0)) / x0 = Real.log x0 + (x - x0) / x0 := by field_simp; ring
  rw [this, Real.exp_add, Real.exp_log h]

/-- the argument of the root -/
noncomputable def inner (x0 x : ℝ) : ℝ := if x < x0 then x0 * Real.exp ((x - x0) / x0) else x

theorem sqrtReg_eq (x0 x : ℝ) (h : 0 < x0) : sqrtReg x0 x = Real.sqrt (inner x0 x) := by
  unfold sqrtReg inner
  simp only [inner_eq x0 x h]

theorem inner_pos (x0 x : ℝ) (h : 0 < x0) : 0 < inner x0 x := by
  unfold inner
  split
  · exact mul_pos h (Real.exp_pos _)
  · linarith

/-- **C86_root.** From x0 on it is the root; it is positive everywhere, also for negative arguments; and it is never below the root. -/
theorem C86_root (x0 : ℝ) (h : 0 < x0) (x : ℝ) : (x0 ≤ x → sqrtReg x0 x = Real.sqrt x) ∧ 0 < sqrtReg x0 x ∧ Real.sqrt x ≤ sqrtReg x0 x := by
  refine ⟨?_, ?_, ?_⟩
  · intro hx
    rw [sqrtReg_eq x0 x h, inner, if_neg (by linarith)]
  · rw [sqrtReg_eq x0 x h]; exact Real.sqrt_pos.2 (inner_pos x0 x h)
  · rw [sqrtReg_eq x0 x h]
    apply Real.sqrt_le_sqrt
    unfold inner
    split
    · have h1 := Real.add_one_le_exp ((x - x0) / x0)
      have h2 : x0 * ((x - x0) / x0 + 1) = x := by field_simp; ring
      nlinarith [mul_le_mul_of_nonneg_left h1 h.le]
    · exact le_refl x

/-- **C86_root_mono.** It is strictly increasing. -/
theorem C86_root_mono (x0 : ℝ) (h : 0 < x0) : StrictMono (sqrtReg x0) := by
  intro a b hab
  rw [sqrtReg_eq x0 a h, sqrtReg_eq x0 b h]
  apply Real.sqrt_lt_sqrt (inner_pos x0 a h).le
  unfold inner
  by_cases ha : a < x0
  · rw [if_pos ha]
    by_cases hb : b < x0
    · rw [if_pos hb]
      apply mul_lt_mul_of_pos_left _ h
      apply Real.exp_lt_exp.2
      exact (div_lt_div_iff_of_pos_right h).2 (by linarith)
    · rw [if_neg hb]
      have h1 : (a - x0) / x0 < 0 := div_neg_of_neg_of_pos (by linarith) h
      have h2 : Real.exp ((a - x0) / x0) < 1 := by rw [← Real.exp_zero]; exact Real.exp_lt_exp.2 h1
      nlinarith
  · rw [if_neg ha, if_neg (by linarith)]; exact hab

/-- **C86_root_smooth.** It is differentiable everywhere: at x0 the two parts meet with the same value and slope. -/
theorem C86_root_smooth (x0 : ℝ) (h : 0 < x0) : Differentiable ℝ (sqrtReg x0) := by
  have hg : ∀ x, HasDerivAt (fun x => x0 * Real.exp ((x - x0) / x0)) (Real.exp ((x - x0) / x0)) x := by
    intro x
    have h1 : HasDerivAt (fun x => (x - x0) / x0) (1 / x0) x := ((hasDerivAt_id x).sub_const x0).div_const x0
    have h2 := (h1.exp).const_mul x0
    have h3 : x0 * (Real.exp ((x - x0) / x0) * (1 / x0)) = Real.exp ((x - x0) / x0) := by field_simp
    rwa [h3] at h2
  have hi : ∀ x, DifferentiableAt ℝ (inner x0) x := by
    intro x
    rcases lt_trichotomy x x0 with hx | hx | hx
    · have : inner x0 =ᶠ[nhds x] fun x => x0 * Real.exp ((x - x0) / x0) := by
        filter_upwards [Iio_mem_nhds hx] with y hy
        simp [inner, if_pos (show y < x0 from hy)]
      exact (hg x).differentiableAt.congr_of_eventuallyEq this
    · subst hx
      have h1 : HasDerivAt (fun y => x * Real.exp ((y - x) / x)) 1 x := by simpa using hg x
      have hval : inner x x = x := by simp [inner]
      have hl : HasDerivWithinAt (inner x) 1 (Set.Iic x) x := by
        apply h1.hasDerivWithinAt.congr
        · intro y hy
          rcases lt_or_eq_of_le (show y ≤ x from hy) with hlt | heq
          · simp [inner, if_pos hlt]
          · rw [heq]; simp [inner]
        · simp [inner]
      have hr : HasDerivWithinAt (inner x) 1 (Set.Ici x) x := by
        apply (hasDerivAt_id x).hasDerivWithinAt.congr
        · intro y hy
          simp [inner, not_lt.2 (show x ≤ y from hy)]
        · simp [inner]
      have := hl.union hr
      rw [Set.Iic_union_Ici, hasDerivWithinAt_univ] at this
      exact this.differentiableAt
    · have : inner x0 =ᶠ[nhds x] fun x => x := by
        filter_upwards [Ioi_mem_nhds hx] with y hy
        simp [inner, if_neg (not_lt.2 (le_of_lt (show x0 < y from hy)))]
      exact differentiableAt_id.congr_of_eventuallyEq this
  intro x
  have heq : sqrtReg x0 = fun x => Real.sqrt (inner x0 x) := by funext y; exact sqrtReg_eq x0 y h
  rw [heq]
  exact (hi x).sqrt (inner_pos x0 x h).ne'

/-- **C86_in_order.** The commands of a string are run one after the other, each in the name space the one before left behind; the first that fails ends it, with what it left behind. -/
theorem C86_in_order (a b : List (List Char)) (c : List Char) (e e1 : E) (h : execAll exec a e = (e1, true)) :
    (∀ e2, exec c e1 = (e2, false) → execAll exec (a ++ c :: b) e = (e2, false)) ∧
    (∀ e2, exec c e1 = (e2, true) → execAll exec (a ++ c :: b) e = execAll exec b e2) ∧ execAll exec [] e = (e, true) := by
  have key : ∀ (a : List (List Char)) (e : E), execAll exec a e = (e1, true) → execAll exec (a ++ c :: b) e = execAll exec (c :: b) e1 := by
    intro a
    induction a with
    | nil => intro e h; simp [execAll] at h; subst h; rfl
    | cons x a ih =>
      intro e h
      rcases hx : exec x e with ⟨e', (_ | _)⟩
      · simp [execAll, hx] at h
      · simp only [execAll, hx] at h
        simp only [List.cons_append, execAll, hx]
        exact ih e' h
  refine ⟨?_, ?_, rfl⟩
  · intro e2 h2; rw [key a e h]; simp [execAll, h2]
  · intro e2 h2; rw [key a e h]; simp [execAll, h2]

end Foxes.Props.UtilFns
