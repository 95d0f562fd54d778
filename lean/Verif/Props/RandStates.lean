import Verif.Model.RandStates
import Mathlib.Tactic.Linarith
import Mathlib.Tactic.FieldSimp
import Mathlib.Tactic.Positivity
import Mathlib.Tactic.NormNum
import Mathlib.Data.List.Induction
/-
C81: random states.
-/
namespace Foxes.Props.RandStates
open Foxes.RandStates

variable {G : Type}

/-! ## Specification -/

/-- the generator gives numbers in `[0, 1)` -/
def Good (R : Gen G) : Prop := ∀ g, 0 ≤ (R.next g).1 ∧ (R.next g).1 < 1

/-- `r` numbers of `[lo, hi)` -/
def InRange (lo hi : ℝ) (l : List ℝ) : Prop := ∀ x ∈ l, lo ≤ x ∧ x < hi

/-! ## Draws -/

theorem draws_length (R : Gen G) : ∀ n g, (draws R n g).1.length = n
  | 0, _ => rfl
  | n + 1, g => by simp [draws, draws_length R n]

theorem draws_range (R : Gen G) (hR : Good R) : ∀ n g, ∀ u ∈ (draws R n g).1, 0 ≤ u ∧ u < 1
  | 0, _, u, h => by simp [draws] at h
  | n + 1, g, u, h => by
    simp only [draws, List.mem_cons] at h
    rcases h with rfl | h
    · exact hR g
    · exact draws_range R hR n _ u h

theorem uniform_range (R : Gen G) (hR : Good R) (lo hi : ℝ) (h : lo < hi) (n : ℕ) (g : G) : InRange lo hi (uniform R (lo, hi) n g).1 := by
  intro x hx
  obtain ⟨u, hu, rfl⟩ := List.mem_map.1 hx
  obtain ⟨h0, h1⟩ := draws_range R hR n g u hu
  constructor <;> simp only <;> nlinarith

theorem uniform_length (R : Gen G) (mm : ℝ × ℝ) (n : ℕ) (g : G) : (uniform R mm n g).1.length = n := by simp [uniform, draws_length]

/-- the columns: the names in order, each with `n` numbers of its range -/
theorem columns_spec (R : Gen G) (hR : Good R) (n : ℕ) : ∀ (cs : List (String × ℝ × ℝ)) (g : G), (∀ c ∈ cs, c.2.1 < c.2.2) →
    List.Forall₂ (fun (c : String × ℝ × ℝ) (x : String × List ℝ) => x.1 = c.1 ∧ x.2.length = n ∧ InRange c.2.1 c.2.2 x.2) cs (columns R n cs g).1
  | [], _, _ => List.Forall₂.nil
  | c :: cs, g, h => by
    simp only [columns]
    exact List.Forall₂.cons ⟨rfl, uniform_length R _ n g, uniform_range R hR _ _ (h c List.mem_cons_self) n g⟩ (columns_spec R hR n cs _ fun d hd => h d (List.mem_cons_of_mem _ hd))

/-- further columns do not change the first ones -/
theorem columns_append (R : Gen G) (n : ℕ) : ∀ (a b : List (String × ℝ × ℝ)) (g : G), (columns R n (a ++ b) g).1 = (columns R n a g).1 ++ (columns R n b (columns R n a g).2).1
  | [], _, _ => rfl
  | c :: a, b, g => by simp only [List.cons_append, columns, columns_append R n a b]

theorem columns_names (R : Gen G) (n : ℕ) : ∀ (cs : List (String × ℝ × ℝ)) (g : G), (columns R n cs g).1.map (·.1) = cs.map (·.1)
  | [], _ => rfl
  | c :: cs, g => by simp [columns, columns_names R n cs]

theorem draws_state (R : Gen G) (mm mm' : ℝ × ℝ) (n : ℕ) (g : G) : (uniform R mm n g).2 = (uniform R mm' n g).2 := rfl

/-! ## States of the boundary layer -/

/-- **C81 (ranges).** There is a column with `n_states` values for each variable, in order; for columns other than those of the Obukhov length and the weight, all values
are in the range of the variable. -/
theorem C81_columns (R : Gen G) (hR : Good R) (n : ℕ) (cols : List (String × ℝ × ℝ)) (hc : ∀ c ∈ cols, c.2.1 < c.2.2) (var2col : List (String × String)) (molRange : Option (ℝ × ℝ)) (norm : Bool) (g : G) :
    List.Forall₂ (fun (c : String × ℝ × ℝ) (x : String × List (Option ℝ)) => x.1 = c.1 ∧ x.2.length = n ∧
      (c.1 ≠ colOf var2col "MOL" → c.1 ≠ colOf var2col "weight" → ∀ y ∈ x.2, ∃ v, y = some v ∧ c.2.1 ≤ v ∧ v < c.2.2)) cols (createAbl R n cols var2col molRange norm g).1 := by
  have h := columns_spec R hR n cols g hc
  simp only [createAbl]
  generalize (columns R n cols g).1 = t at h
  induction h with
  | nil => cases molRange <;> cases norm <;> exact List.Forall₂.nil
  | @cons c x cs xs hx hxs ih =>
    have ih := ih fun d hd => hc d (List.mem_cons_of_mem _ hd)
    have base : ∀ y ∈ x.2.map some, ∃ v, y = some v ∧ c.2.1 ≤ v ∧ v < c.2.2 := by
      intro y hy
      obtain ⟨v, hv, rfl⟩ := List.mem_map.1 hy
      exact ⟨v, rfl, hx.2.2 v hv⟩
    have hl := hx.2.1
    cases molRange with
    | none =>
      cases norm with
      | false => exact List.Forall₂.cons ⟨hx.1, by simpa using hl, fun _ _ => base⟩ ih
      | true =>
        refine List.Forall₂.cons ?_ ih
        by_cases hw : x.1 = colOf var2col "weight"
        · simp only [hw, beq_self_eq_true, if_true]
          exact ⟨by rw [← hx.1, hw], by simpa [normalise] using hl, fun _ h => absurd (hx.1.symm.trans hw) h⟩
        · have : (x.1 == colOf var2col "weight") = false := by simpa using hw
          simp only [this, Bool.false_eq_true, if_false]
          exact ⟨hx.1, by simpa using hl, fun _ _ => base⟩
    | some r =>
      cases norm with
      | false =>
        refine List.Forall₂.cons ?_ ih
        by_cases hw : x.1 = colOf var2col "MOL"
        · simp only [hw, beq_self_eq_true, if_true]
          exact ⟨by rw [← hx.1, hw], by simpa [limitMol] using hl, fun h => absurd (hx.1.symm.trans hw) h⟩
        · have : (x.1 == colOf var2col "MOL") = false := by simpa using hw
          simp only [this, Bool.false_eq_true, if_false]
          exact ⟨hx.1, by simpa using hl, fun _ _ => base⟩
      | true =>
        refine List.Forall₂.cons ?_ ih
        by_cases hm : x.1 = colOf var2col "MOL"
        · simp only [hm, beq_self_eq_true, if_true]
          split_ifs
          · exact ⟨by rw [← hx.1, hm], by simpa [limitMol, normalise] using hl, fun h => absurd (hx.1.symm.trans hm) h⟩
          · exact ⟨by rw [← hx.1, hm], by simpa [limitMol] using hl, fun h => absurd (hx.1.symm.trans hm) h⟩
        · have hm' : (x.1 == colOf var2col "MOL") = false := by simpa using hm
          simp only [hm', Bool.false_eq_true, if_false]
          by_cases hw : x.1 = colOf var2col "weight"
          · simp only [hw, beq_self_eq_true, if_true]
            exact ⟨by rw [← hx.1, hw], by simpa [normalise] using hl, fun _ h => absurd (hx.1.symm.trans hw) h⟩
          · have : (x.1 == colOf var2col "weight") = false := by simpa using hw
            simp only [this, Bool.false_eq_true, if_false]
            exact ⟨hx.1, by simpa using hl, fun _ _ => base⟩

theorem mem_onColumn {α : Type} {c : String} {f : List α → List α} {t : List (String × List α)} {x : String × List α} (h : x ∈ onColumn c f t) :
    ∃ y ∈ t, x.1 = y.1 ∧ x.2 = if y.1 = c then f y.2 else y.2 := by
  obtain ⟨y, hy, rfl⟩ := List.mem_map.1 h
  by_cases e : y.1 = c
  · exact ⟨y, hy, by simp [e], by simp [e]⟩
  · have : (y.1 == c) = false := by simpa using e
    exact ⟨y, hy, by simp [this], by simp [this, e]⟩

/-- **C81 (Obukhov length).** In the column of the Obukhov length all values are nan, or of an allowed size. -/
theorem C81_mol (R : Gen G) (n : ℕ) (cols : List (String × ℝ × ℝ)) (var2col : List (String × String)) (r : ℝ × ℝ) (norm : Bool) (g : G)
    (hne : colOf var2col "MOL" ≠ colOf var2col "weight") (l : List (Option ℝ)) (h : (colOf var2col "MOL", l) ∈ (createAbl R n cols var2col (some r) norm g).1) (m : ℝ) (hm : some m ∈ l) :
    r.1 ≤ |m| ∧ |m| ≤ r.2 := by
  have key : ∃ l0, l = limitMol r l0 := by
    simp only [createAbl] at h
    cases norm with
    | false =>
      obtain ⟨y, _, h1, h2⟩ := mem_onColumn h
      simp only at h1 h2
      rw [if_pos h1.symm] at h2
      exact ⟨_, h2⟩
    | true =>
      obtain ⟨y, hy, h1, h2⟩ := mem_onColumn h
      simp only at h1 h2
      rw [if_neg (by rw [← h1]; exact hne)] at h2
      obtain ⟨z, _, h3, h4⟩ := mem_onColumn hy
      rw [if_pos (by rw [← h3, ← h1])] at h4
      exact ⟨_, h2.trans h4⟩
  obtain ⟨l0, rfl⟩ := key
  obtain ⟨y, _, hy⟩ := List.mem_map.1 hm
  cases y with
  | none => simp at hy
  | some q =>
    simp only [Option.bind_some] at hy
    by_cases hq : |q| < r.1 ∨ |q| > r.2
    · rw [if_pos hq] at hy; cases hy
    · rw [if_neg hq] at hy
      cases hy
      push Not at hq
      exact hq

/-- **C81 (nothing else is lost).** ... and only values of other sizes are nan. -/
theorem C81_mol_kept (r : ℝ × ℝ) (l : List (Option ℝ)) (i : ℕ) (m : ℝ) (hm : l[i]? = some (some m)) (h1 : r.1 ≤ |m|) (h2 : |m| ≤ r.2) : (limitMol r l)[i]? = some (some m) := by
  simp only [limitMol, List.getElem?_map, hm, Option.map_some, Option.bind_some]
  rw [if_neg]
  push Not
  exact ⟨h1, h2⟩

/-- **C81 (weights).** With positive weights the normalised ones are positive, have the same proportions, and the sum 1. -/
theorem C81_weights (l : List ℝ) (hl : l ≠ []) (hp : ∀ w ∈ l, 0 < w) :
    ∃ k, 0 < k ∧ normalise (l.map some) = (l.map (k * ·)).map some ∧ (l.map (k * ·)).sum = 1 := by
  have hs : 0 < l.sum := by
    obtain ⟨a, m, rfl⟩ := List.exists_cons_of_ne_nil hl
    rw [List.sum_cons]
    have h1 := hp a List.mem_cons_self
    have h2 : 0 ≤ m.sum := List.sum_nonneg fun w hw => (hp w (List.mem_cons_of_mem _ hw)).le
    linarith
  refine ⟨l.sum⁻¹, by positivity, ?_, ?_⟩
  · have hf : (l.map some).filterMap id = l := by
      rw [List.filterMap_map]; simp
    simp only [normalise, hf, List.map_map]
    apply List.map_congr_left
    intro w _
    simp only [Function.comp, Option.bind_some]
    rw [if_neg hs.ne', div_eq_inv_mul]
  · have hk : ∀ (k : ℝ) (m : List ℝ), (m.map (k * ·)).sum = k * m.sum := by
      intro k m
      induction m with
      | nil => simp
      | cons a m ih => rw [List.map_cons, List.sum_cons, List.sum_cons, ih, mul_add]
    rw [hk, inv_mul_cancel₀ hs.ne']

/-- **C81 (weights of a table).** Without limits for the Obukhov length, a column of weights with positive range has the sum 1. -/
theorem C81_weight_column (R : Gen G) (hR : Good R) (n : ℕ) (hn : 0 < n) (lo hi : ℝ) (h0 : 0 < lo) (h1 : lo < hi) (var2col : List (String × String)) (g : G) :
    ∃ l : List ℝ, (createAbl R n [(colOf var2col "weight", lo, hi)] var2col none true g).1 = [(colOf var2col "weight", l.map some)] ∧ l.sum = 1 ∧ l.length = n ∧ ∀ w ∈ l, 0 < w := by
  have hr := uniform_range R hR lo hi h1 n g
  have hlen := uniform_length R (lo, hi) n g
  obtain ⟨k, hk, e, hs⟩ := C81_weights (uniform R (lo, hi) n g).1 (by intro e; rw [e] at hlen; simp at hlen; omega) (fun w hw => lt_of_lt_of_le h0 (hr w hw).1)
  refine ⟨(uniform R (lo, hi) n g).1.map (k * ·), ?_, hs, by simp [hlen], ?_⟩
  · simp only [createAbl, columns, List.map_cons, List.map_nil, onColumn, beq_self_eq_true, if_true, e]
  · intro w hw
    obtain ⟨x, hx, rfl⟩ := List.mem_map.1 hw
    have hx0 : 0 < x := lt_of_lt_of_le h0 (hr x hx).1
    exact mul_pos hk hx0

/-- **C81 (finding).** Columns are named after the *keys* of `cols_minmax`, but looked up under the names of `var2col`: if the keys are variables, as the documentation wants it, and the variable has
another column name, Obukhov lengths are not limited and weights are not normalised. -/
theorem C81_renamed (R : Gen G) (n : ℕ) (cols : List (String × ℝ × ℝ)) (var2col : List (String × String)) (molRange : Option (ℝ × ℝ)) (norm : Bool) (g : G)
    (h : ∀ c ∈ cols, c.1 ≠ colOf var2col "MOL" ∧ c.1 ≠ colOf var2col "weight") :
    (createAbl R n cols var2col molRange norm g).1 = (columns R n cols g).1.map fun c => (c.1, c.2.map some) := by
  have hn : ∀ x ∈ (columns R n cols g).1, x.1 ≠ colOf var2col "MOL" ∧ x.1 ≠ colOf var2col "weight" := by
    intro x hx
    have : x.1 ∈ cols.map (·.1) := by rw [← columns_names R n cols g]; exact List.mem_map_of_mem hx
    obtain ⟨c, hc, e⟩ := List.mem_map.1 this
    rw [← e]; exact h c hc
  have key : ∀ (c : String) (f : List (Option ℝ) → List (Option ℝ)), (∀ x ∈ (columns R n cols g).1, x.1 ≠ c) →
      onColumn c f ((columns R n cols g).1.map fun c => (c.1, c.2.map some)) = (columns R n cols g).1.map fun c => (c.1, c.2.map some) := by
    intro c f hc
    unfold onColumn
    rw [List.map_map]
    apply List.map_congr_left
    intro x hx
    have : (x.1 == c) = false := by simpa using hc x hx
    simp [Function.comp, this]
  simp only [createAbl]
  cases molRange <;> cases norm <;> simp only [Bool.false_eq_true, if_false, if_true, key _ _ (fun x hx => (hn x hx).1), key _ _ (fun x hx => (hn x hx).2)]

/-- **C81 (file).** Written values differ from the created ones by half a unit of the last of 4 digits at most (6 for the turbulence intensity, 1 for the Obukhov length); weights are
written as they are, so that their sum stays 1. -/
theorem C81_written (R : Gen G) (rnd : ℕ → ℝ → ℝ) (hr : ∀ d x, |rnd d x - x| ≤ (1 / 2) * (1 / 10) ^ d) (digits : Option (List (String × ℕ))) (n : ℕ) (cols : List (String × ℝ × ℝ)) (var2col : List (String × String))
    (molRange : Option (ℝ × ℝ)) (norm : Bool) (g : G) :
    List.Forall₂ (fun (c x : String × List (Option ℝ)) => x.1 = c.1 ∧
      (c.1 = colOf var2col "weight" → c.1 ≠ colOf var2col "TI" → c.1 ≠ colOf var2col "MOL" → x.2 = c.2) ∧
      List.Forall₂ (fun (a b : Option ℝ) => (a = none ↔ b = none) ∧ ∀ u v, a = some u → b = some v →
        |v - u| ≤ (1 / 2) * (1 / 10) ^ (if c.1 = colOf var2col "TI" then 6 else if c.1 = colOf var2col "MOL" then 1 else 4)) c.2 x.2)
      (createAbl R n cols var2col molRange norm g).1 (writeAbl R rnd digits n cols var2col molRange norm g) := by
  have hsame : ∀ (k : ℕ) (l : List (Option ℝ)), List.Forall₂ (fun (a b : Option ℝ) => (a = none ↔ b = none) ∧ ∀ u v, a = some u → b = some v → |v - u| ≤ (1 / 2 : ℝ) * (1 / 10) ^ k) l l := by
    intro k l
    refine List.forall₂_same.2 fun a _ => ⟨Iff.rfl, fun u v h1 h2 => ?_⟩
    rw [h1] at h2; cases h2
    simp
  have hrnd : ∀ (k : ℕ) (l : List (Option ℝ)), List.Forall₂ (fun (a b : Option ℝ) => (a = none ↔ b = none) ∧ ∀ u v, a = some u → b = some v → |v - u| ≤ (1 / 2 : ℝ) * (1 / 10) ^ k) l (l.map fun x => x.map (rnd k)) := by
    intro k l
    induction l with
    | nil => exact List.Forall₂.nil
    | cons a l ih =>
      refine List.Forall₂.cons ⟨by cases a <;> simp, fun u v h1 h2 => ?_⟩ ih
      rw [h1] at h2
      simp only [Option.map_some, Option.some.injEq] at h2
      rw [← h2]; exact hr k u
  simp only [writeAbl]
  generalize (createAbl R n cols var2col molRange norm g).1 = t
  cases digits with
  | none => exact List.forall₂_same.2 fun c _ => ⟨rfl, fun _ _ _ => rfl, hsame _ _⟩
  | some d =>
    induction t with
    | nil => exact List.Forall₂.nil
    | cons c t ih =>
      refine List.Forall₂.cons ?_ ih
      by_cases h1 : c.1 = colOf var2col "TI"
      · simp only [digitsOf, h1, beq_self_eq_true, if_true]
        exact ⟨by trivial, fun _ h => absurd rfl h, hrnd 6 c.2⟩
      · have h1' : (c.1 == colOf var2col "TI") = false := by simpa using h1
        by_cases h2 : c.1 = colOf var2col "MOL"
        · have h1'' : ¬ (colOf var2col "MOL" = colOf var2col "TI") := by rw [← h2]; exact h1
          have h1b : (colOf var2col "MOL" == colOf var2col "TI") = false := by simpa using h1''
          simp only [digitsOf, h2, h1b, h1'', beq_self_eq_true, if_true, Bool.false_eq_true, if_false]
          exact ⟨by trivial, fun _ _ h => absurd rfl h, hrnd 1 c.2⟩
        · have h2' : (c.1 == colOf var2col "MOL") = false := by simpa using h2
          by_cases h3 : c.1 = colOf var2col "weight"
          · have h3' : (c.1 == colOf var2col "weight") = true := by simpa using h3
            simp only [digitsOf, h1', h2', h3', if_true, Bool.false_eq_true, if_false]
            exact ⟨by trivial, fun _ _ _ => by trivial, hsame _ _⟩
          · have h3' : (c.1 == colOf var2col "weight") = false := by simpa using h3
            simp only [digitsOf, h1', h2', h3', Bool.false_eq_true, if_false, h1, h2]
            exact ⟨by trivial, fun h => absurd h h3, hrnd 4 c.2⟩

/-- **C81 (finding).** The digits the user asks for are ignored. -/
theorem C81_digits_ignored (R : Gen G) (rnd : ℕ → ℝ → ℝ) (d d' : List (String × ℕ)) (n : ℕ) (cols : List (String × ℝ × ℝ)) (var2col : List (String × String)) (molRange : Option (ℝ × ℝ)) (norm : Bool) (g : G) :
    writeAbl R rnd (some d) n cols var2col molRange norm g = writeAbl R rnd (some d') n cols var2col molRange norm g := rfl

/-! ## Time series -/

theorem mem_setRange {d : List (String × ℝ × ℝ)} {x y : String × ℝ × ℝ} : y ∈ setRange d x ↔ y = x ∨ (y ∈ d ∧ y.1 ≠ x.1) := by
  unfold setRange
  by_cases h : d.any (fun y => y.1 == x.1) = true
  · rw [if_pos h, List.mem_map]
    constructor
    · rintro ⟨z, hz, e⟩
      by_cases hz1 : z.1 = x.1
      · simp only [hz1, beq_self_eq_true, if_true] at e; exact Or.inl e.symm
      · have : (z.1 == x.1) = false := by simpa using hz1
        simp only [this, Bool.false_eq_true, if_false] at e
        subst e; exact Or.inr ⟨hz, hz1⟩
    · rintro (rfl | ⟨h1, h2⟩)
      · obtain ⟨z, hz, e⟩ := List.any_eq_true.1 h
        exact ⟨z, hz, by simp [e]⟩
      · have : (y.1 == x.1) = false := by simpa using h2
        exact ⟨y, h1, by simp [this]⟩
  · rw [if_neg h, List.mem_append, List.mem_singleton]
    constructor
    · rintro (h1 | h1)
      · refine Or.inr ⟨h1, fun e => h (List.any_eq_true.2 ⟨y, h1, by simp [e]⟩)⟩
      · exact Or.inl h1
    · rintro (h1 | h1)
      · exact Or.inr h1
      · exact Or.inl h1.1

/-- **C81 (series, variables).** There is exactly one range for each variable: the user's last one, else, for `WS` and `WD`, the default one. -/
theorem C81_series_variables (l : List (String × ℝ × ℝ)) (y : String × ℝ × ℝ) :
    y ∈ ranges l ↔ (∃ l1 l2, l = l1 ++ y :: l2 ∧ ∀ z ∈ l2, z.1 ≠ y.1) ∨ ((y = ("WS", 0, 30) ∨ y = ("WD", 0, 360)) ∧ ∀ z ∈ l, z.1 ≠ y.1) := by
  unfold ranges
  induction l using List.reverseRecOn with
  | nil => simp
  | append_singleton l x ih =>
    rw [List.foldl_append, List.foldl_cons, List.foldl_nil, mem_setRange, ih]
    constructor
    · rintro (rfl | ⟨h | h, hne⟩)
      · exact Or.inl ⟨l, [], rfl, by simp⟩
      · obtain ⟨l1, l2, e, h⟩ := h
        refine Or.inl ⟨l1, l2 ++ [x], by rw [e]; simp, ?_⟩
        intro z hz
        rcases List.mem_append.1 hz with hz | hz
        · exact h z hz
        · rw [List.mem_singleton.1 hz]; exact fun e => hne e.symm
      · refine Or.inr ⟨h.1, ?_⟩
        intro z hz
        rcases List.mem_append.1 hz with hz | hz
        · exact h.2 z hz
        · rw [List.mem_singleton.1 hz]; exact fun e => hne e.symm
    · rintro (⟨l1, l2, e, h⟩ | ⟨h1, h2⟩)
      · rcases List.eq_nil_or_concat l2 with rfl | ⟨l3, w, rfl⟩
        · have := List.append_inj_right' e rfl
          simp at this
          exact Or.inl this.symm
        · right
          have e' : l ++ [x] = (l1 ++ y :: l3) ++ [w] := by rw [e]; simp
          obtain ⟨e1, e2⟩ := List.append_inj' e' rfl
          simp only [List.cons.injEq, and_true] at e2
          subst e2
          refine ⟨Or.inl ⟨l1, l3, e1, fun z hz => h z (by simp [hz])⟩, fun hh => h x (by simp) hh.symm⟩
      · right
        refine ⟨Or.inr ⟨h1, fun z hz => h2 z (by simp [hz])⟩, fun e => h2 x (by simp) e.symm⟩

/-- **C81 (series, ranges).** Each variable has `n_times` values of its range. -/
theorem C81_series_values (R : Gen G) (hR : Good R) (n : ℕ) (l : List (String × ℝ × ℝ)) (hl : ∀ c ∈ l, c.2.1 < c.2.2) (seed : Option ℕ) (g : G) :
    List.Forall₂ (fun (c : String × ℝ × ℝ) (x : String × List ℝ) => x.1 = c.1 ∧ x.2.length = n ∧ InRange c.2.1 c.2.2 x.2) (ranges l) (series R n l seed g).1 := by
  refine columns_spec R hR n (ranges l) _ fun c hc => ?_
  rcases (C81_series_variables l c).1 hc with ⟨l1, l2, e, _⟩ | ⟨h | h, _⟩
  · exact hl c (by rw [e]; simp)
  · rw [h]; norm_num
  · rw [h]; norm_num

/-- **C81 (reproducible).** With a seed other than 0 the series does not depend on what was drawn before ... -/
theorem C81_seed (R : Gen G) (n : ℕ) (l : List (String × ℝ × ℝ)) (s : ℕ) (hs : s ≠ 0) (g g' : G) : series R n l (some s) g = series R n l (some s) g' := by
  simp [series, hs]

/-- **C81 (finding).** ... the seed 0 is ignored. -/
theorem C81_seed_zero (R : Gen G) (n : ℕ) (l : List (String × ℝ × ℝ)) (g : G) : series R n l (some 0) g = series R n l none g := by
  simp [series]

/-- ... so that repeated calls with the seed 0 give different series -/
example : ∃ (R : Gen ℕ), Good R ∧ let a := series R 1 [] (some 0) 0; a.1 ≠ (series R 1 [] (some 0) a.2).1 := by
  refine ⟨⟨id, fun k => (1 / (k + 2), k + 1)⟩, fun k => ⟨by positivity, ?_⟩, ?_⟩
  · show 1 / ((k : ℝ) + 2) < 1
    rw [div_lt_one (by positivity)]
    have : (0 : ℝ) ≤ k := Nat.cast_nonneg k
    linarith
  · simp [series, ranges, columns, uniform, draws]

/-- **C81 (further variables).** With the same seed, a further variable does not change the values of the others. -/
theorem C81_further (R : Gen G) (n : ℕ) (l : List (String × ℝ × ℝ)) (x : String × ℝ × ℝ) (hx : ∀ y ∈ ranges l, y.1 ≠ x.1) (seed : Option ℕ) (g : G) :
    ∃ c, (series R n (l ++ [x]) seed g).1 = (series R n l seed g).1 ++ [c] ∧ c.1 = x.1 := by
  have e : ranges (l ++ [x]) = ranges l ++ [x] := by
    rw [ranges, List.foldl_append, List.foldl_cons, List.foldl_nil]
    have hn : ¬ ((l.foldl setRange [("WS", 0, 30), ("WD", 0, 360)]).any (fun y => y.1 == x.1) = true) := by
      intro h
      obtain ⟨y, hy, e⟩ := List.any_eq_true.1 h
      exact hx y hy (by simpa using e)
    rw [setRange, if_neg hn]; rfl
  simp only [series, e, columns_append]
  exact ⟨_, rfl, rfl⟩

/-- the state of the generator after some columns only depends on their number -/
theorem columns_state (R : Gen G) (n : ℕ) : ∀ (a b : List (String × ℝ × ℝ)) (g : G), a.length = b.length → (columns R n a g).2 = (columns R n b g).2
  | [], [], _, _ => rfl
  | [], _ :: _, _, h => by simp at h
  | _ :: _, [], _, h => by simp at h
  | c :: a, d :: b, g, h => by
    simp only [columns]
    rw [draws_state R c.2 d.2 n g]
    exact columns_state R n a b _ (by simpa using h)

/-- **C81 (other ranges).** With the same numbers, another range for a variable (the same variables otherwise) rescales its values, and changes no other variable. -/
theorem C81_rescaled (R : Gen G) (n : ℕ) (a b : List (String × ℝ × ℝ)) (v : String) (r r' : ℝ × ℝ) (g : G) :
    ∃ (us : List ℝ) (A B : List (String × List ℝ)), us.length = n ∧
      (columns R n (a ++ (v, r) :: b) g).1 = A ++ (v, us.map fun u => r.1 + (r.2 - r.1) * u) :: B ∧
      (columns R n (a ++ (v, r') :: b) g).1 = A ++ (v, us.map fun u => r'.1 + (r'.2 - r'.1) * u) :: B := by
  refine ⟨(draws R n (columns R n a g).2).1, (columns R n a g).1, (columns R n b (draws R n (columns R n a g).2).2).1, draws_length R n _, ?_, ?_⟩ <;>
    rw [columns_append] <;> rfl

/-! ### Examples -/

/-- a generator -/
noncomputable def demo : Gen ℕ := ⟨id, fun _ => (1 / 2, 0)⟩

example : Good demo := fun _ => ⟨by simp [demo], by simp [demo]; norm_num⟩

/-- an Obukhov length of 5 m is removed, unless the column has the name of the variable but is mapped to another column -/
example : (createAbl demo 1 [("MOL", 0, 10)] [] (some (50, 5000)) true 0).1 = [("MOL", [none])] ∧ (createAbl demo 1 [("MOL", 0, 10)] [("MOL", "mo_length")] (some (50, 5000)) true 0).1 = [("MOL", [some 5])] := by
  constructor
  · simp [createAbl, columns, uniform, draws, demo, onColumn, colOf, limitMol]; norm_num
  · simp [createAbl, columns, uniform, draws, demo, onColumn, colOf]; norm_num

example : ranges [("TI", 0, 1), ("WS", 5, 6)] = [("WS", 5, 6), ("WD", 0, 360), ("TI", 0, 1)] := by simp [ranges, setRange]

/-! ## Each number is used once -/

/-- the `k`-th number the generator gives, from the state `g` -/
noncomputable def stream (R : Gen G) (g : G) (k : ℕ) : ℝ := (R.next ((fun s => (R.next s).2)^[k] g)).1

theorem draws_stream (R : Gen G) : ∀ n g, (draws R n g).1 = (List.range n).map (stream R g) ∧ (draws R n g).2 = (fun s => (R.next s).2)^[n] g
  | 0, g => by simp [draws]
  | n + 1, g => by
    obtain ⟨h1, h2⟩ := draws_stream R n (R.next g).2
    constructor
    · rw [List.range_succ_eq_map, List.map_cons, List.map_map]
      simp only [draws, h1]
      congr 1
    · simp only [draws, h2, Function.iterate_succ, Function.comp]

/-- **C81 (fresh numbers).** Value `j` of column `i` is number `n_states * i + j` of the generator, scaled to the range: no number is used twice, none is left out. -/
theorem C81_fresh (R : Gen G) (n : ℕ) (cs : List (String × ℝ × ℝ)) (g : G) :
    (∀ (i : ℕ) (c : String × ℝ × ℝ), cs[i]? = some c → (columns R n cs g).1[i]? = some (c.1, (List.range n).map fun j => c.2.1 + (c.2.2 - c.2.1) * stream R g (n * i + j))) ∧
      (columns R n cs g).2 = (fun s => (R.next s).2)^[n * cs.length] g := by
  induction cs generalizing g with
  | nil => simp [columns]
  | cons d cs ih =>
    obtain ⟨h1, h2⟩ := ih (uniform R d.2 n g).2
    have hst : (uniform R d.2 n g).2 = (fun s => (R.next s).2)^[n] g := (draws_stream R n g).2
    constructor
    · intro i c hc
      cases i with
      | zero =>
        simp only [List.getElem?_cons_zero, Option.some.injEq] at hc
        subst hc
        simp [columns, uniform, (draws_stream R n g).1, Function.comp]
      | succ i =>
        simp only [List.getElem?_cons_succ] at hc
        simp only [columns, List.getElem?_cons_succ, h1 i c hc]
        congr 2
        apply List.map_congr_left
        intro j _
        congr 2
        rw [hst, stream, stream, ← Function.iterate_add_apply]
        congr 3
        rw [Nat.mul_add]; omega
    · rw [hst] at h2
      show (columns R n cs (uniform R d.2 n g).2).2 = _
      rw [hst, h2, ← Function.iterate_add_apply, List.length_cons, Nat.mul_succ]

end Foxes.Props.RandStates
