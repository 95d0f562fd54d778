import Verif.Model.MultiHeight
import Verif.Props.WindDir
import Mathlib.Tactic.Linarith
import Mathlib.Tactic.FieldSimp
import Mathlib.Tactic.Ring
import Mathlib.Tactic.ByContra
import Mathlib.Algebra.BigOperators.Group.List.Basic
import Mathlib.Data.List.GetD
/-
C54: ambient states with data at several heights.
-/
namespace Foxes.Props.MultiHeight
open Foxes.MultiHeight Foxes.WindDir

/-! ### Specification -/

/-- the variable is read from columns, one for each height -/
def AtHeights (cfg : Cfg) (tab : Table) (v : String) : Prop :=
  v ∈ cfg.ovars ∧ v ≠ "weight" ∧ cfg.fixed v = none ∧ col cfg v ∉ tab.cols

/-- the variable is read from a single column -/
def OneColumn (cfg : Cfg) (tab : Table) (v : String) : Prop :=
  v ∈ cfg.ovars ∧ v ≠ "weight" ∧ cfg.fixed v = none ∧ col cfg v ∈ tab.cols

/-- the entry of the table for state `s`, variable `v` and height `h`, by the rule for column names -/
noncomputable def entry (cfg : Cfg) (tab : Table) (s : ℕ) (v : String) (h : ℝ) : ℝ := tab.val s (hcol cfg v h)

/-- `z` lies between two neighbouring heights `a` and `b` -/
def Between (hs : List ℝ) (a b z : ℝ) : Prop := (∃ l r, hs = l ++ a :: b :: r) ∧ a ≤ z ∧ z ≤ b

/-- value at `z` of the straight line through `(a, x)` and `(b, y)` -/
noncomputable def line (a b x y z : ℝ) : ℝ := x + (z - a) / (b - a) * (y - x)

/-- the wind speed the table gives at height `h`: the column of that height, the fixed value, or the single column -/
noncomputable def speedAt (cfg : Cfg) (tab : Table) (s : ℕ) (h : ℝ) : ℝ :=
  open scoped Classical in
  match cfg.fixed "WS" with
  | some x => x
  | none => if col cfg "WS" ∈ tab.cols then tab.val s (col cfg "WS") else entry cfg tab s "WS" h

/-- **C54 (column names).** The column of a variable is its name, or what `var2col` maps the name to; the column at a height is that name
with a dash and the height, or what `var2col` maps this to. -/
theorem C54_column_names (cfg : Cfg) (v c : String) (h : ℝ) :
    (cfg.var2col v = none → col cfg v = v) ∧ (cfg.var2col v = some c → col cfg v = c) ∧
    (cfg.var2col v = none → cfg.var2col (v ++ "-" ++ cfg.hname h) = none → hcol cfg v h = v ++ "-" ++ cfg.hname h) ∧
    (cfg.var2col v = some c → cfg.var2col (c ++ "-" ++ cfg.hname h) = none → hcol cfg v h = c ++ "-" ++ cfg.hname h) ∧
    (∀ c', cfg.var2col v = none → cfg.var2col (v ++ "-" ++ cfg.hname h) = some c' → hcol cfg v h = c') := by
  refine ⟨fun a => by simp [col, a], fun a => by simp [col, a], fun a b => by simp [hcol, col, a, b], fun a b => by simp [hcol, col, a, b],
    fun c' a b => by simp [hcol, col, a, b]⟩

/-! ### Loading -/

lemma heightCols_ok (cfg : Cfg) (cols : List String) (v : String) (hs : List ℝ) (l : List String) :
    heightCols cfg cols v hs = .ok l ↔ (∀ h ∈ hs, hcol cfg v h ∈ cols) ∧ l = hs.map (hcol cfg v) := by
  induction hs generalizing l with
  | nil => simp [heightCols, eq_comm]
  | cons h hs ih =>
      unfold heightCols
      by_cases hh : hcol cfg v h ∈ cols
      · rw [if_pos hh]
        cases e : heightCols cfg cols v hs with
        | error x =>
            simp only [reduceCtorEq, false_iff, not_and]
            intro h1
            have := (ih (hs.map (hcol cfg v))).2 ⟨fun a ha => h1 a (by simp [ha]), rfl⟩
            rw [e] at this; simp at this
        | ok l' =>
            obtain ⟨h1, h2⟩ := (ih l').1 e
            simp only [Except.ok.injEq, List.mem_cons, forall_eq_or_imp, List.map_cons]
            subst h2
            constructor
            · rintro rfl; exact ⟨⟨hh, h1⟩, rfl⟩
            · rintro ⟨_, rfl⟩; rfl
      · rw [if_neg hh]
        simp [hh]

/-- state of the loading loop after the variables `done` -/
structure Inv (cfg : Cfg) (tab : Table) (done : List String) (acc : Loaded) : Prop where
  vrs : ∀ v, v ∈ acc.vrs ↔ v ∈ done ∧ v ≠ "weight" ∧ cfg.fixed v = none ∧ col cfg v ∉ tab.cols
  cols : acc.cols = acc.vrs.flatMap (fun v => cfg.heights.map (hcol cfg v)) ∨ acc.vrs.length * cfg.heights.length + cfg.heights.length ≤ acc.cols.length
  present : ∀ v ∈ acc.vrs, ∀ h ∈ cfg.heights, hcol cfg v h ∈ tab.cols
  solo : ∀ v, acc.solo.lookup v = if v ∈ done ∧ v ≠ "weight" ∧ cfg.fixed v = none ∧ col cfg v ∈ tab.cols then some (col cfg v) else none
  mul : ∃ k, acc.cols.length = k * cfg.heights.length

lemma findCols_cases (cfg : Cfg) (cols : List String) (v : String) :
    ((cfg.fixed v).isSome ∧ findCols cfg cols v = .ok []) ∨
    (cfg.fixed v = none ∧ col cfg v ∈ cols ∧ findCols cfg cols v = .ok [col cfg v]) ∨
    (cfg.fixed v = none ∧ col cfg v ∉ cols ∧ (∀ h ∈ cfg.heights, hcol cfg v h ∈ cols) ∧
      findCols cfg cols v = .ok (cfg.heights.map (hcol cfg v))) ∨
    (cfg.fixed v = none ∧ col cfg v ∉ cols ∧ (∃ h ∈ cfg.heights, hcol cfg v h ∉ cols) ∧ ∃ e, findCols cfg cols v = .error e) := by
  unfold findCols
  cases hf : cfg.fixed v with
  | some x => simp
  | none =>
      by_cases hc : col cfg v ∈ cols
      · simp [hc]
      · by_cases ha : ∀ h ∈ cfg.heights, hcol cfg v h ∈ cols
        · right; right; left
          refine ⟨rfl, hc, ha, ?_⟩
          simp only [Option.isSome_none, Bool.false_eq_true, if_false, hc]
          exact (heightCols_ok _ _ _ _ _).2 ⟨ha, rfl⟩
        · right; right; right
          refine ⟨rfl, hc, by push Not at ha; exact ha, ?_⟩
          simp only [Option.isSome_none, Bool.false_eq_true, if_false, hc]
          cases e : heightCols cfg cols v cfg.heights with
          | error x => exact ⟨x, rfl⟩
          | ok l => exact absurd ((heightCols_ok _ _ _ _ _).1 e).1 ha

lemma loadStep_height (cfg : Cfg) (tcols : List String) (acc : Loaded) (v : String) (h2 : 2 ≤ cfg.heights.length) (hw : v ≠ "weight")
    (hf : findCols cfg tcols v = .ok (cfg.heights.map (hcol cfg v))) :
    loadStep cfg tcols acc v = .ok ⟨(open scoped Classical in if v ∈ acc.vrs then acc.vrs else acc.vrs ++ [v]), acc.cols ++ cfg.heights.map (hcol cfg v), acc.solo⟩ := by
  unfold loadStep
  rw [if_neg hw, hf]
  match hh : cfg.heights, h2 with
  | a :: b :: l, _ => rfl

lemma lookup_append (l : List (String × String)) (v w c : String) :
    (l ++ [(w, c)]).lookup v = (l.lookup v).or (if v = w then some c else none) := by
  induction l with
  | nil => by_cases h : v = w <;> simp [List.lookup, h]
  | cons p l ih =>
      obtain ⟨a, b⟩ := p
      by_cases h : v = a
      · subst h; simp [List.lookup]
      · have : (v == a) = false := by simpa using h
        simp only [List.cons_append, List.lookup, this]
        exact ih

lemma inv_step (cfg : Cfg) (tab : Table) (done : List String) (acc acc' : Loaded) (v : String) (h2 : 2 ≤ cfg.heights.length)
    (I : Inv cfg tab done acc) (h : loadStep cfg tab.cols acc v = .ok acc') : Inv cfg tab (done ++ [v]) acc' := by
  by_cases hw : v = "weight"
  · have : acc' = acc := by unfold loadStep at h; rw [if_pos hw] at h; simpa using h.symm
    subst this
    refine ⟨fun w => ?_, I.cols, I.present, fun w => ?_, I.mul⟩
    · rw [I.vrs w]; subst hw; simp only [List.mem_append, List.mem_singleton]; tauto
    · rw [I.solo w]
      congr 1; subst hw; simp only [List.mem_append, List.mem_singleton, eq_iff_iff]; tauto
  · rcases findCols_cases cfg tab.cols v with ⟨a, b⟩ | ⟨a, b, c⟩ | ⟨a, b, c, d⟩ | ⟨a, b, c, e, d⟩
    · have : acc' = acc := by unfold loadStep at h; rw [if_neg hw, b] at h; simpa using h.symm
      subst this
      have hn : cfg.fixed v ≠ none := by intro e; rw [e] at a; simp at a
      refine ⟨fun w => ?_, I.cols, I.present, fun w => ?_, I.mul⟩
      · rw [I.vrs w]; simp only [List.mem_append, List.mem_singleton]
        constructor
        · tauto
        · rintro ⟨h1 | rfl, h3⟩ <;> tauto
      · rw [I.solo w]
        congr 1; simp only [List.mem_append, List.mem_singleton, eq_iff_iff]
        constructor
        · tauto
        · rintro ⟨h1 | rfl, h3⟩ <;> tauto
    · have : acc' = { acc with solo := acc.solo ++ [(v, col cfg v)] } := by
        unfold loadStep at h; rw [if_neg hw, c] at h; simpa using h.symm
      subst this
      refine ⟨fun w => ?_, I.cols, I.present, fun w => ?_, I.mul⟩
      · show w ∈ acc.vrs ↔ _
        rw [I.vrs w]; simp only [List.mem_append, List.mem_singleton]
        constructor
        · tauto
        · rintro ⟨h1 | rfl, h3⟩ <;> tauto
      · simp only [lookup_append]
        rw [I.solo w]
        by_cases hd : w ∈ done ∧ w ≠ "weight" ∧ cfg.fixed w = none ∧ col cfg w ∈ tab.cols
        · rw [if_pos hd]
          have : w ∈ done ++ [v] ∧ w ≠ "weight" ∧ cfg.fixed w = none ∧ col cfg w ∈ tab.cols := by
            simp only [List.mem_append]; tauto
          rw [if_pos this]; rfl
        · rw [if_neg hd]
          by_cases hv : w = v
          · subst hv
            rw [if_pos rfl, if_pos (by simp; tauto)]; rfl
          · rw [if_neg hv, if_neg (by simp only [List.mem_append, List.mem_singleton]; tauto)]; rfl
    · rw [loadStep_height cfg tab.cols acc v h2 hw d] at h
      have h := (Except.ok.inj h).symm
      subst h
      refine ⟨fun w => ?_, ?_, ?_, fun w => ?_, ?_⟩
      · have := I.vrs w
        by_cases hm : v ∈ acc.vrs
        · simp only [if_pos hm, List.mem_append, List.mem_singleton]
          constructor
          · intro h; have := this.1 h; tauto
          · rintro ⟨h1 | rfl, h3⟩
            · exact this.2 ⟨h1, h3⟩
            · exact hm
        · simp only [if_neg hm, List.mem_append, List.mem_singleton]
          constructor
          · rintro (h | rfl)
            · have := this.1 h; tauto
            · tauto
          · rintro ⟨h1 | rfl, h3⟩
            · exact Or.inl (this.2 ⟨h1, h3⟩)
            · exact Or.inr rfl
      · by_cases hm : v ∈ acc.vrs
        · right
          simp only [if_pos hm, List.length_append, List.length_map]
          rcases I.cols with e | e
          · have : acc.cols.length = acc.vrs.length * cfg.heights.length := by
              rw [e, List.length_flatMap]; simp
            omega
          · omega
        · simp only [if_neg hm]
          rcases I.cols with e | e
          · left; rw [e]; simp
          · right; simp only [List.length_append, List.length_map, List.length_singleton]; rw [Nat.add_mul]; omega
      · intro w hwm
        by_cases hm : v ∈ acc.vrs
        · simp only [if_pos hm] at hwm; exact I.present w hwm
        · simp only [if_neg hm, List.mem_append, List.mem_singleton] at hwm
          rcases hwm with h | rfl
          · exact I.present w h
          · exact c
      · show acc.solo.lookup w = _
        rw [I.solo w]
        congr 1; simp only [List.mem_append, List.mem_singleton, eq_iff_iff]
        constructor
        · tauto
        · rintro ⟨h1 | rfl, h3⟩ <;> tauto
      · obtain ⟨k, hk⟩ := I.mul
        exact ⟨k + 1, by simp [hk, Nat.add_mul]⟩
    · unfold loadStep at h; rw [if_neg hw, d] at h; simp at h

lemma inv_loop (cfg : Cfg) (tab : Table) (h2 : 2 ≤ cfg.heights.length) (vs : List String) : ∀ (done : List String) (acc acc' : Loaded),
    Inv cfg tab done acc → loadLoop cfg tab.cols acc vs = .ok acc' → Inv cfg tab (done ++ vs) acc' := by
  induction vs with
  | nil => intro done acc acc' I h; simp only [loadLoop, Except.ok.injEq] at h; subst h; simpa using I
  | cons v vs ih =>
      intro done acc acc' I h
      unfold loadLoop at h
      cases e : loadStep cfg tab.cols acc v with
      | error x => rw [e] at h; simp at h
      | ok a =>
          rw [e] at h
          have := ih (done ++ [v]) a acc' (inv_step cfg tab done acc a v h2 I e) h
          simpa using this

lemma inv_load (cfg : Cfg) (tab : Table) (ld : Loaded) (h2 : 2 ≤ cfg.heights.length) (h : load cfg tab = .ok ld) :
    Inv cfg tab cfg.ovars ld ∧ ld.cols = ld.vrs.flatMap (fun v => cfg.heights.map (hcol cfg v)) := by
  unfold load at h
  split at h
  · simp at h
  · cases e : loadLoop cfg tab.cols ⟨[], [], []⟩ cfg.ovars with
    | error x => rw [e] at h; simp at h
    | ok a =>
        rw [e] at h
        by_cases hd : a.cols.length / cfg.heights.length = a.vrs.length
        · simp only [if_pos hd, Except.ok.injEq] at h
          subst h
          have I : Inv cfg tab ([] ++ cfg.ovars) a := inv_loop cfg tab h2 cfg.ovars [] ⟨[], [], []⟩ a
            ⟨by simp, Or.inl (by simp), by simp, by simp, ⟨0, by simp⟩⟩ e
          simp only [List.nil_append] at I
          refine ⟨I, ?_⟩
          rcases I.cols with c | c
          · exact c
          · exfalso
            have : a.vrs.length + 1 ≤ a.cols.length / cfg.heights.length := by
              rw [Nat.le_div_iff_mul_le (by omega), Nat.add_mul]; omega
            omega
        · simp [if_neg hd] at h

lemma flatMap_getD (f : String → List String) (n : ℕ) (hf : ∀ v, (f v).length = n) (l : List String) (i j : ℕ) (hi : i < l.length) (hj : j < n) :
    (l.flatMap f).getD (i * n + j) "" = (f (l.getD i "")).getD j "" := by
  induction l generalizing i with
  | nil => simp at hi
  | cons a l ih =>
      simp only [List.flatMap_cons]
      cases i with
      | zero =>
          simp only [Nat.zero_mul, Nat.zero_add, List.getD_cons_zero]
          rw [List.getD_append _ _ _ _ (by rw [hf]; exact hj)]
      | succ i =>
          rw [List.getD_append_right _ _ _ _ (by rw [hf, Nat.add_mul]; omega), hf]
          have : (i + 1) * n + j - n = i * n + j := by rw [Nat.add_mul]; omega
          rw [this, List.getD_cons_succ]
          exact ih i (by simpa using hi)

/-- the element of the loaded array is the entry of the table -/
lemma elem_entry (cfg : Cfg) (tab : Table) (ld : Loaded) (h2 : 2 ≤ cfg.heights.length) (h : load cfg tab = .ok ld) (s : ℕ) (v : String)
    (hv : v ∈ ld.vrs) (j : ℕ) (hj : j < cfg.heights.length) :
    elem cfg tab ld s (ld.vrs.idxOf v) j = entry cfg tab s v (cfg.heights.getD j 0) := by
  obtain ⟨I, hc⟩ := inv_load cfg tab ld h2 h
  have hi : ld.vrs.idxOf v < ld.vrs.length := List.idxOf_lt_length_iff.2 hv
  have hlen : ld.cols.length = ld.vrs.length * cfg.heights.length := by
    rw [hc, List.length_flatMap]; simp
  have hlt : ld.vrs.idxOf v * cfg.heights.length + j < ld.cols.length := by
    rw [hlen]
    have : (ld.vrs.idxOf v + 1) * cfg.heights.length ≤ ld.vrs.length * cfg.heights.length := Nat.mul_le_mul_right _ hi
    rw [Nat.add_mul] at this; omega
  have hk : (s * ld.vrs.length + ld.vrs.idxOf v) * cfg.heights.length + j = (ld.vrs.idxOf v * cfg.heights.length + j) + ld.cols.length * s := by
    rw [hlen]; ring
  unfold elem entry
  simp only
  rw [hk, Nat.add_mul_div_left _ _ (by omega), Nat.div_eq_of_lt hlt, Nat.add_mul_mod_self_left, Nat.mod_eq_of_lt hlt, Nat.zero_add]
  congr 1
  rw [hc, flatMap_getD (fun v => cfg.heights.map (hcol cfg v)) cfg.heights.length (by simp) _ _ _ hi hj]
  have e1 : ld.vrs.getD (ld.vrs.idxOf v) "" = v := by
    rw [List.getD_eq_getElem _ _ hi]; exact List.getElem_idxOf hi
  rw [e1, List.getD_eq_getElem _ _ (by simpa using hj), List.getD_eq_getElem _ _ hj]
  simp

/-! ### Interpolation weights -/

lemma takeWhile_length_append (l r : List ℝ) (z : ℝ) (h : ∀ x ∈ l, x < z) :
    ((l ++ r).takeWhile (fun h => decide (h < z))).length = l.length + (r.takeWhile (fun h => decide (h < z))).length := by
  rw [List.takeWhile_append_of_pos (by simpa using h)]
  simp

lemma contract_two (n lo hi : ℕ) (hlo : lo < n) (hhi : hi < n) (x y : ℝ) (f : ℕ → ℝ) (w : List ℝ) (hw : w.length = n)
    (h : ∀ j < n, w.getD j 0 = (if j = lo then x else 0) + (if j = hi then y else 0)) : contract w f = f lo * x + f hi * y := by
  have key : ∀ (n i : ℕ) (x : ℝ), i < n → ((List.range n).map (fun j => f j * (if j = i then x else 0))).sum = f i * x := by
    intro n i x hi
    induction n with
    | zero => omega
    | succ n ih =>
        rw [List.range_succ, List.map_append, List.sum_append]
        by_cases hin : i = n
        · subst hin
          have : ((List.range i).map (fun j => f j * (if j = i then x else 0))).sum = 0 := by
            apply List.sum_eq_zero
            intro y hy
            simp only [List.mem_map, List.mem_range] at hy
            obtain ⟨j, hj, rfl⟩ := hy
            simp [Nat.ne_of_lt hj]
          rw [this]; simp
        · rw [ih (by omega)]
          simp [Ne.symm hin]
  unfold contract
  rw [hw]
  have : (List.range n).map (fun j => f j * w.getD j 0) =
      (List.range n).map (fun j => f j * (if j = lo then x else 0) + f j * (if j = hi then y else 0)) := by
    apply List.map_congr_left
    intro j hj
    rw [h j (by simpa using hj)]; ring
  rw [this, List.sum_map_add, key n lo x hlo, key n hi y hhi]

lemma unitVec_getD (n i j : ℕ) (hj : j < n) : (unitVec n i).getD j 0 = if j = i then 1 else 0 := by
  unfold unitVec
  rw [List.getD_eq_getElem _ _ (by simpa using hj)]; simp

lemma getD_mid (l r : List ℝ) (a b : ℝ) : (l ++ a :: b :: r).getD l.length 0 = a ∧ (l ++ a :: b :: r).getD (l.length + 1) 0 = b := by
  constructor
  · rw [List.getD_append_right _ _ _ _ (le_refl _)]; simp
  · rw [List.getD_append_right _ _ _ _ (by omega)]; simp

/-- the weights at a height between two neighbours: the line between the two values -/
lemma contract_interp (hs l r : List ℝ) (a b z : ℝ) (e : hs = l ++ a :: b :: r) (hp : hs.Pairwise (· < ·)) (ha : a ≤ z) (hb : z ≤ b) (f : ℕ → ℝ) :
    contract (interpVec hs z) f = line a b (f l.length) (f (l.length + 1)) z := by
  have hl : ∀ x ∈ l, x < a := by
    intro x hx; rw [e] at hp
    exact (List.pairwise_append.1 hp).2.2 x hx a (by simp)
  have hab : a < b := by
    rw [e] at hp
    have := (List.pairwise_append.1 hp).2.1
    simp only [List.pairwise_cons, List.mem_cons, forall_eq_or_imp] at this
    exact this.1.1
  have hlen : hs.length = l.length + 2 + r.length := by rw [e]; simp; omega
  have hba : b - a ≠ 0 := by linarith
  have gm := getD_mid l r a b
  rw [← e] at gm
  have hss : searchsorted hs z = if a < z then l.length + 1 else l.length := by
    unfold searchsorted
    rw [e, takeWhile_length_append _ _ _ (fun x hx => lt_of_lt_of_le (hl x hx) ha)]
    by_cases h : a < z
    · rw [if_pos h]
      simp [h, not_lt.2 hb]
    · rw [if_neg h]
      simp [h]
  by_cases h : a < z ∨ l = []
  · have hu : upper hs z = l.length + 1 := by
      unfold upper; rw [hss, hlen]
      by_cases h1 : a < z
      · rw [if_pos h1]; omega
      · rw [if_neg h1]
        have : l = [] := h.resolve_left h1
        subst this; simp
    have hv : interpVec hs z = (List.range hs.length).map (fun j =>
        ((unitVec hs.length (l.length + 1)).getD j 0 - (unitVec hs.length l.length).getD j 0) / (b - a) * (z - a)
        + (unitVec hs.length l.length).getD j 0) := by
      unfold interpVec; simp only [hu, Nat.add_sub_cancel, gm.1, gm.2]
    rw [contract_two hs.length l.length (l.length + 1) (by omega) (by omega) (1 - (z - a) / (b - a)) ((z - a) / (b - a)) f _ (by simp [interpVec])]
    · unfold line; ring
    · intro j hj
      rw [hv, List.getD_eq_getElem _ _ (by simpa using hj)]
      simp only [List.getElem_map, List.getElem_range, unitVec_getD _ _ _ hj]
      by_cases j1 : j = l.length
      · subst j1; simp; field_simp; ring
      · by_cases j2 : j = l.length + 1
        · subst j2; simp; field_simp
        · simp [j1, j2]
  · push Not at h
    obtain ⟨h1, h3⟩ := h
    have hz : z = a := le_antisymm h1 ha
    obtain ⟨l', a', rfl⟩ : ∃ l' a', l = l' ++ [a'] := ⟨l.dropLast, l.getLast h3, (List.dropLast_append_getLast h3).symm⟩
    have ha' : a' < a := hl a' (by simp)
    have gm' : hs.getD l'.length 0 = a' ∧ hs.getD (l'.length + 1) 0 = a := by
      rw [e]; simp
    have hu : upper hs z = l'.length + 1 := by
      unfold upper; rw [hss, hlen, if_neg (by rw [hz]; exact lt_irrefl _)]; simp only [List.length_append, List.length_singleton]; omega
    have hv : interpVec hs z = (List.range hs.length).map (fun j =>
        ((unitVec hs.length (l'.length + 1)).getD j 0 - (unitVec hs.length l'.length).getD j 0) / (a - a') * (z - a')
        + (unitVec hs.length l'.length).getD j 0) := by
      unfold interpVec; simp only [hu, Nat.add_sub_cancel, gm'.1, gm'.2]
    simp only [List.length_append, List.length_singleton] at hlen ⊢
    rw [contract_two hs.length l'.length (l'.length + 1) (by omega) (by omega) 0 1 f _ (by simp [interpVec])]
    · unfold line; rw [hz]; ring
    · intro j hj
      rw [hv, List.getD_eq_getElem _ _ (by simpa using hj)]
      simp only [List.getElem_map, List.getElem_range, unitVec_getD _ _ _ hj]
      have hne : a - a' ≠ 0 := by linarith
      rw [hz, div_mul_cancel₀ _ hne]
      by_cases j1 : j = l'.length
      · subst j1; simp
      · by_cases j2 : j = l'.length + 1
        · subst j2; simp
        · simp [j1, j2]

/-! ### Calculation -/

lemma collect_ok (f : String → Except Err ℝ) (vs : List String) (r : List (String × ℝ)) (h : collect f vs = .ok r) :
    ∀ v ∈ vs, ∃ x, r.lookup v = some x ∧ f v = .ok x := by
  induction vs generalizing r with
  | nil => simp
  | cons w vs ih =>
      unfold collect at h
      cases e : f w with
      | error x => rw [e] at h; simp at h
      | ok x =>
          rw [e] at h
          cases e2 : collect f vs with
          | error y => rw [e2] at h; simp at h
          | ok l =>
              rw [e2] at h
              simp only [Except.ok.injEq] at h
              subst h
              intro v hv
              by_cases hvw : v = w
              · subst hvw; exact ⟨x, by simp, e⟩
              · obtain ⟨y, h1, h2⟩ := ih l e2 v (by simpa [hvw] using hv)
                refine ⟨y, ?_, h2⟩
                have : (v == w) = false := by simpa using hvw
                simp [List.lookup, this, h1]

lemma collect_succeeds (f : String → Except Err ℝ) (vs : List String) : (∃ r, collect f vs = .ok r) ↔ ∀ v ∈ vs, ∃ x, f v = .ok x := by
  induction vs with
  | nil => simp [collect]
  | cons w vs ih =>
      unfold collect
      cases e : f w with
      | error x => simp [e]
      | ok x =>
          cases e2 : collect f vs with
          | error y =>
              have := ih.not.1 (by rintro ⟨r, hr⟩; rw [e2] at hr; simp at hr)
              simp only [reduceCtorEq, exists_false, List.mem_cons, forall_eq_or_imp, false_iff, not_and]
              intro _; exact this
          | ok l => simp [e]; exact ih.1 ⟨l, e2⟩

lemma run_parts (cfg : Cfg) (tab : Table) (s : ℕ) (z : ℝ) (r : List (String × ℝ)) (h : run cfg tab s z = .ok r) :
    ∃ ld w uv, load cfg tab = .ok ld ∧ weightsAt cfg z = .ok w ∧ windVec cfg tab ld s w = .ok uv ∧
      ∀ v ∈ cfg.ovars, ∃ x, r.lookup v = some x ∧ resultOf cfg tab ld s w uv v = .ok x := by
  unfold run at h
  cases e : load cfg tab with
  | error x => rw [e] at h; simp at h
  | ok ld =>
      rw [e] at h
      simp only [calculate] at h
      cases e1 : weightsAt cfg z with
      | error x => rw [e1] at h; simp at h
      | ok w =>
          rw [e1] at h
          simp only at h
          cases e2 : windVec cfg tab ld s w with
          | error x => rw [e2] at h; simp at h
          | ok uv =>
              rw [e2] at h
              exact ⟨ld, w, uv, rfl, rfl, e2, collect_ok _ _ _ h⟩

lemma between_ge (hs : List ℝ) (a b z : ℝ) (hp : hs.Pairwise (· < ·)) (hb : Between hs a b z) :
    ∃ x y, hs.head? = some x ∧ hs.getLast? = some y ∧ x ≤ z ∧ z ≤ y ∧ 2 ≤ hs.length := by
  obtain ⟨⟨l, r, e⟩, ha, hb⟩ := hb
  have hne : hs ≠ [] := by rw [e]; simp
  refine ⟨hs.head hne, hs.getLast hne, List.head?_eq_some_head hne, List.getLast?_eq_some_getLast hne, ?_, ?_, by rw [e]; simp; omega⟩
  · refine le_trans ?_ ha
    subst e
    cases l with
    | nil => simp
    | cons x l =>
        simp only [List.cons_append, List.head_cons]
        simp only [List.cons_append, List.pairwise_cons] at hp
        exact le_of_lt (hp.1 a (by simp))
  · refine le_trans hb ?_
    subst e
    have h1 := (List.pairwise_append.1 hp).2.1
    rw [List.getLast_append_of_ne_nil _ (by simp)]
    rw [List.getLast_cons (by simp)]
    simp only [List.pairwise_cons] at h1
    cases r with
    | nil => simp
    | cons c r =>
        rw [List.getLast_cons (by simp)]
        exact le_of_lt (h1.2.1 _ (List.getLast_mem _))

lemma weights_between (cfg : Cfg) (a b z : ℝ) (hp : cfg.heights.Pairwise (· < ·)) (hb : Between cfg.heights a b z) :
    weightsAt cfg z = .ok (interpVec cfg.heights z) := by
  obtain ⟨x, y, h1, h2, h3, h4, _⟩ := between_ge _ a b z hp hb
  unfold weightsAt
  rw [h1, h2]
  simp only
  rw [if_neg (not_lt.2 h3), if_neg (not_lt.2 h4)]

lemma contract_entry (cfg : Cfg) (tab : Table) (ld : Loaded) (s : ℕ) (a b z : ℝ) (v : String) (hp : cfg.heights.Pairwise (· < ·))
    (hb : Between cfg.heights a b z) (h : load cfg tab = .ok ld) (hv : v ∈ ld.vrs) :
    contract (interpVec cfg.heights z) (fun j => elem cfg tab ld s (ld.vrs.idxOf v) j) =
      line a b (entry cfg tab s v a) (entry cfg tab s v b) z := by
  obtain ⟨x, y, _, _, _, _, h2⟩ := between_ge _ a b z hp hb
  obtain ⟨⟨l, r, e⟩, ha, hb⟩ := hb
  have gm := getD_mid l r a b
  rw [← e] at gm
  have hlen : cfg.heights.length = l.length + 2 + r.length := by rw [e]; simp; omega
  rw [contract_interp cfg.heights l r a b z e hp ha hb]
  rw [elem_entry cfg tab ld h2 h s v hv _ (by omega), elem_entry cfg tab ld h2 h s v hv _ (by omega), gm.1, gm.2]

lemma mem_vrs (cfg : Cfg) (tab : Table) (ld : Loaded) (h2 : 2 ≤ cfg.heights.length) (h : load cfg tab = .ok ld) (v : String) :
    v ∈ ld.vrs ↔ AtHeights cfg tab v := (inv_load cfg tab ld h2 h).1.vrs v

lemma solo_some (cfg : Cfg) (tab : Table) (ld : Loaded) (h2 : 2 ≤ cfg.heights.length) (h : load cfg tab = .ok ld) (v : String)
    (hv : OneColumn cfg tab v) : ld.solo.lookup v = some (col cfg v) := by
  rw [(inv_load cfg tab ld h2 h).1.solo v]; exact if_pos hv

lemma solo_none (cfg : Cfg) (tab : Table) (ld : Loaded) (h2 : 2 ≤ cfg.heights.length) (h : load cfg tab = .ok ld) (v : String)
    (hv : ¬ OneColumn cfg tab v) : ld.solo.lookup v = none := by
  rw [(inv_load cfg tab ld h2 h).1.solo v]; exact if_neg hv

lemma windVec_none (cfg : Cfg) (tab : Table) (ld : Loaded) (s : ℕ) (w : List ℝ) (uv : Option (ℝ × ℝ)) (h : windVec cfg tab ld s w = .ok uv)
    (hv : "WD" ∉ ld.vrs) : uv = none := by
  unfold windVec at h; rw [if_neg hv] at h; simpa using h.symm

lemma resultOf_plain (cfg : Cfg) (tab : Table) (ld : Loaded) (s : ℕ) (w : List ℝ) (uv : Option (ℝ × ℝ)) (v : String)
    (h : uv = none ∨ (v ≠ "WD" ∧ v ≠ "WS")) :
    resultOf cfg tab ld s w uv v = open scoped Classical in match cfg.fixed v, ld.solo.lookup v with
      | some x, _ => .ok x
      | none, some c => .ok (tab.val s c)
      | none, none =>
          if v ∈ ld.vrs then .ok (contract w (fun j => elem cfg tab ld s (ld.vrs.idxOf v) j)) else .error .index := by
  unfold resultOf
  rcases h with rfl | ⟨h1, h2⟩
  · rfl
  · cases uv with
    | none => rfl
    | some uv => simp only [h1, h2, decide_false]; rfl

/-- the variable is not one of the two wind variables, or there are no wind directions at heights -/
def Plain (cfg : Cfg) (tab : Table) (v : String) : Prop := ¬ AtHeights cfg tab "WD" ∨ (v ≠ "WD" ∧ v ≠ "WS")

lemma plain_result (cfg : Cfg) (tab : Table) (ld : Loaded) (s : ℕ) (w : List ℝ) (uv : Option (ℝ × ℝ)) (v : String)
    (h2 : 2 ≤ cfg.heights.length) (h : load cfg tab = .ok ld) (hu : windVec cfg tab ld s w = .ok uv) (hp : Plain cfg tab v)
    (hv : AtHeights cfg tab v) :
    resultOf cfg tab ld s w uv v = .ok (contract w (fun j => elem cfg tab ld s (ld.vrs.idxOf v) j)) := by
  rw [resultOf_plain]
  · rw [hv.2.2.1, solo_none cfg tab ld h2 h v (fun hc => hv.2.2.2 hc.2.2.2)]
    simp only
    rw [if_pos ((mem_vrs cfg tab ld h2 h v).2 hv)]
  · rcases hp with hp | hp
    · exact Or.inl (windVec_none _ _ _ _ _ _ hu (by rw [mem_vrs cfg tab ld h2 h]; exact hp))
    · exact Or.inr hp

/-- **C54 (linear in height).** A variable with one column per height is, at every height between two neighbouring heights of the table,
the linear interpolation of the two entries of its own columns in the row of the state. (Wind speed and direction with wind directions
at heights: next theorems.) -/
theorem C54_linear (cfg : Cfg) (tab : Table) (s : ℕ) (z a b : ℝ) (r : List (String × ℝ)) (v : String)
    (hs : cfg.heights.Pairwise (· < ·)) (hb : Between cfg.heights a b z) (hv : AtHeights cfg tab v) (hp : Plain cfg tab v)
    (h : run cfg tab s z = .ok r) :
    r.lookup v = some (line a b (entry cfg tab s v a) (entry cfg tab s v b) z) := by
  obtain ⟨ld, w, uv, h1, h2, h3, h4⟩ := run_parts _ _ _ _ _ h
  obtain ⟨x, y, _, _, _, _, hl⟩ := between_ge _ a b z hs hb
  obtain ⟨x, hx, hr⟩ := h4 v hv.1
  rw [weights_between cfg a b z hs hb] at h2
  have h2 := (Except.ok.inj h2).symm
  subst h2
  rw [plain_result cfg tab ld s _ uv v hl h1 h3 hp hv, contract_entry cfg tab ld s a b z v hs hb h1 ((mem_vrs cfg tab ld hl h1 v).2 hv)] at hr
  rw [hx, ← Except.ok.inj hr]

lemma speed_ok (cfg : Cfg) (tab : Table) (ld : Loaded) (s : ℕ) (h2 : 2 ≤ cfg.heights.length) (h : load cfg tab = .ok ld) (ws : ℕ → ℝ)
    (hw : wsAt cfg tab ld s = .ok ws) (j : ℕ) (hj : j < cfg.heights.length) : ws j = speedAt cfg tab s (cfg.heights.getD j 0) := by
  unfold wsAt at hw
  unfold speedAt
  by_cases hm : "WS" ∈ ld.vrs
  · rw [if_pos hm] at hw
    have hv := (mem_vrs cfg tab ld h2 h _).1 hm
    have hw := (Except.ok.inj hw).symm
    subst hw
    rw [hv.2.2.1]
    simp only
    rw [if_neg hv.2.2.2, elem_entry cfg tab ld h2 h s _ hm _ hj]
  · rw [if_neg hm] at hw
    cases hf : cfg.fixed "WS" with
    | some x => rw [hf] at hw; simp only [Except.ok.injEq] at hw; subst hw; rfl
    | none =>
        rw [hf] at hw
        simp only
        by_cases hc : OneColumn cfg tab "WS"
        · rw [solo_some cfg tab ld h2 h _ hc] at hw
          simp only [Except.ok.injEq] at hw
          subst hw
          rw [if_pos hc.2.2.2]
        · rw [solo_none cfg tab ld h2 h _ hc] at hw; simp at hw

/-- the two wind variables at given weights -/
lemma wind_result (cfg : Cfg) (tab : Table) (ld : Loaded) (s : ℕ) (w : List ℝ) (uv : Option (ℝ × ℝ)) (h2 : 2 ≤ cfg.heights.length)
    (h : load cfg tab = .ok ld) (hu : windVec cfg tab ld s w = .ok uv) (hwd : AtHeights cfg tab "WD") (hl : w.length = cfg.heights.length) :
    ∃ q : ℝ × ℝ, resultOf cfg tab ld s w uv "WD" = .ok (uv2wd q) ∧ resultOf cfg tab ld s w uv "WS" = .ok √(q.1 ^ 2 + q.2 ^ 2) ∧
      q.1 = contract w (fun j => (wd2uv (entry cfg tab s "WD" (cfg.heights.getD j 0)) (speedAt cfg tab s (cfg.heights.getD j 0))).1) ∧
      q.2 = contract w (fun j => (wd2uv (entry cfg tab s "WD" (cfg.heights.getD j 0)) (speedAt cfg tab s (cfg.heights.getD j 0))).2) := by
  have hm := (mem_vrs cfg tab ld h2 h _).2 hwd
  unfold windVec at hu
  rw [if_pos hm] at hu
  cases e : wsAt cfg tab ld s with
  | error x => rw [e] at hu; simp at hu
  | ok ws =>
      rw [e] at hu
      simp only at hu
      have hu := (Except.ok.inj hu).symm
      subst hu
      refine ⟨_, rfl, rfl, ?_, ?_⟩ <;>
      · simp only [contract]
        congr 1
        apply List.map_congr_left
        intro j hj
        have hj : j < cfg.heights.length := by rw [← hl]; simpa using hj
        rw [elem_entry cfg tab ld h2 h s _ hm _ hj, speed_ok cfg tab ld s h2 h ws e _ hj]

/-- **C54 (wind).** With wind directions at heights, the wind speed and direction returned at a height between two neighbours are those
of the linearly interpolated wind vector. -/
theorem C54_wind_vector (cfg : Cfg) (tab : Table) (s : ℕ) (z a b : ℝ) (r : List (String × ℝ)) (hs : cfg.heights.Pairwise (· < ·))
    (hb : Between cfg.heights a b z) (hwd : AtHeights cfg tab "WD") (hws : "WS" ∈ cfg.ovars) (h : run cfg tab s z = .ok r) :
    ∃ wd ws, r.lookup "WD" = some wd ∧ r.lookup "WS" = some ws ∧ 0 ≤ ws ∧ 0 ≤ wd ∧ wd < 360 ∧
      (wd2uv wd ws).1 = line a b (wd2uv (entry cfg tab s "WD" a) (speedAt cfg tab s a)).1 (wd2uv (entry cfg tab s "WD" b) (speedAt cfg tab s b)).1 z ∧
      (wd2uv wd ws).2 = line a b (wd2uv (entry cfg tab s "WD" a) (speedAt cfg tab s a)).2 (wd2uv (entry cfg tab s "WD" b) (speedAt cfg tab s b)).2 z := by
  obtain ⟨ld, w, uv, h1, h2, h3, h4⟩ := run_parts _ _ _ _ _ h
  obtain ⟨_, _, _, _, _, _, hl⟩ := between_ge _ a b z hs hb
  obtain ⟨wd, hx, hr⟩ := h4 "WD" hwd.1
  obtain ⟨ws, hx', hr'⟩ := h4 "WS" hws
  rw [weights_between cfg a b z hs hb] at h2
  have h2 := (Except.ok.inj h2).symm
  subst h2
  obtain ⟨q, e1, e2, e3, e4⟩ := wind_result cfg tab ld s _ uv hl h1 h3 hwd (by simp [interpVec])
  rw [e1] at hr; rw [e2] at hr'
  have hr := (Except.ok.inj hr).symm
  have hr' := (Except.ok.inj hr').symm
  subst hr; subst hr'
  have rt := Foxes.Props.WindDir.C31_vector_round_trip q
  obtain ⟨⟨l, rr, e⟩, ha, hb⟩ := hb
  have gm := getD_mid l rr a b
  rw [← e] at gm
  rw [contract_interp cfg.heights l rr a b z e hs ha hb, gm.1, gm.2] at e3 e4
  exact ⟨_, _, hx, hx', Real.sqrt_nonneg _, (Foxes.Props.WindDir.C31_range q).1, (Foxes.Props.WindDir.C31_range q).2,
    by rw [rt]; exact e3, by rw [rt]; exact e4⟩

lemma between_t (hs : List ℝ) (a b z : ℝ) (hp : hs.Pairwise (· < ·)) (hb : Between hs a b z) :
    0 ≤ (z - a) / (b - a) ∧ (z - a) / (b - a) ≤ 1 := by
  obtain ⟨⟨l, r, e⟩, ha, hb⟩ := hb
  have hab : a < b := by
    rw [e] at hp
    have := (List.pairwise_append.1 hp).2.1
    simp only [List.pairwise_cons, List.mem_cons, forall_eq_or_imp] at this
    exact this.1.1
  exact ⟨div_nonneg (by linarith) (by linarith), (div_le_one (by linarith)).2 (by linarith)⟩

lemma uv_norm (wd ws : ℝ) (h : 0 ≤ ws) : ws = √((wd2uv wd ws).1 ^ 2 + (wd2uv wd ws).2 ^ 2) := by
  rw [(Foxes.Props.WindDir.C31_convention wd ws).2.2.2.2.1, Real.sqrt_sq h]

/-- **C54 (wind speed bound).** The wind speed never exceeds the linear interpolation of the two wind speeds; it is equal to it if the
two wind directions are equal, and then the direction is kept too. -/
theorem C54_wind_speed_bound (cfg : Cfg) (tab : Table) (s : ℕ) (z a b : ℝ) (r : List (String × ℝ)) (hs : cfg.heights.Pairwise (· < ·))
    (hb : Between cfg.heights a b z) (hwd : AtHeights cfg tab "WD") (hws : "WS" ∈ cfg.ovars) (h : run cfg tab s z = .ok r)
    (h0 : 0 ≤ speedAt cfg tab s a) (h1 : 0 ≤ speedAt cfg tab s b) :
    ∃ wd ws, r.lookup "WD" = some wd ∧ r.lookup "WS" = some ws ∧
      ws ≤ line a b (speedAt cfg tab s a) (speedAt cfg tab s b) z ∧
      (entry cfg tab s "WD" a = entry cfg tab s "WD" b →
        ws = line a b (speedAt cfg tab s a) (speedAt cfg tab s b) z ∧ (0 < ws → ∃ k : ℤ, wd = entry cfg tab s "WD" a + 360 * k)) := by
  obtain ⟨wd, ws, e1, e2, p, p1, p2, u, v⟩ := C54_wind_vector cfg tab s z a b r hs hb hwd hws h
  obtain ⟨t0, t1⟩ := between_t _ a b z hs hb
  have hn := uv_norm wd ws p
  refine ⟨wd, ws, e1, e2, ?_, ?_⟩
  · rw [hn]
    apply Real.sqrt_le_iff.2
    have na := (Foxes.Props.WindDir.C31_convention (entry cfg tab s "WD" a) (speedAt cfg tab s a)).2.2.2.2.1
    have nb := (Foxes.Props.WindDir.C31_convention (entry cfg tab s "WD" b) (speedAt cfg tab s b)).2.2.2.2.1
    rw [u, v]
    generalize (wd2uv (entry cfg tab s "WD" a) (speedAt cfg tab s a)).1 = xa at na ⊢
    generalize (wd2uv (entry cfg tab s "WD" a) (speedAt cfg tab s a)).2 = ya at na ⊢
    generalize (wd2uv (entry cfg tab s "WD" b) (speedAt cfg tab s b)).1 = xb at nb ⊢
    generalize (wd2uv (entry cfg tab s "WD" b) (speedAt cfg tab s b)).2 = yb at nb ⊢
    generalize speedAt cfg tab s a = A at *
    generalize speedAt cfg tab s b = B at *
    unfold line
    generalize (z - a) / (b - a) = t at *
    have hcs : xa * xb + ya * yb ≤ A * B := by
      have : (xa * xb + ya * yb) ^ 2 ≤ (A * B) ^ 2 := by
        have : (A * B) ^ 2 = (xa ^ 2 + ya ^ 2) * (xb ^ 2 + yb ^ 2) := by rw [na, nb]; ring
        rw [this]; nlinarith [sq_nonneg (xa * yb - ya * xb)]
      exact abs_le_of_sq_le_sq' this (mul_nonneg h0 h1) |>.2
    constructor
    · nlinarith
    · have e : (xa + t * (xb - xa)) ^ 2 + (ya + t * (yb - ya)) ^ 2 =
          (1 - t) ^ 2 * (xa ^ 2 + ya ^ 2) + t ^ 2 * (xb ^ 2 + yb ^ 2) + 2 * (t * (1 - t)) * (xa * xb + ya * yb) := by ring
      rw [e, na, nb]
      have : 0 ≤ t * (1 - t) := mul_nonneg t0 (by linarith)
      nlinarith
  · intro hd
    have hvec : wd2uv wd ws = wd2uv (entry cfg tab s "WD" a) (line a b (speedAt cfg tab s a) (speedAt cfg tab s b) z) := by
      rw [← hd] at u v
      ext
      · rw [u]; simp only [wd2uv, wd2wdvec, line]; ring
      · rw [v]; simp only [wd2uv, wd2wdvec, line]; ring
    have hl : 0 ≤ line a b (speedAt cfg tab s a) (speedAt cfg tab s b) z := by
      unfold line; generalize (z - a) / (b - a) = t at *; nlinarith
    have hws : ws = line a b (speedAt cfg tab s a) (speedAt cfg tab s b) z := by
      rw [hn, hvec, ← uv_norm _ _ hl]
    refine ⟨hws, fun hpos => ?_⟩
    have r1 := (Foxes.Props.WindDir.C31_direction_round_trip wd ws hpos).1 p1 p2
    obtain ⟨k, hk⟩ := (Foxes.Props.WindDir.C31_direction_round_trip (entry cfg tab s "WD" a) _ (hws ▸ hpos)).2
    exact ⟨k, by rw [← hk, ← r1.1, hvec]⟩

lemma between_mem (hs : List ℝ) (h : ℝ) (hp : hs.Pairwise (· < ·)) (h2 : 2 ≤ hs.length) (hm : h ∈ hs) :
    (∃ b, Between hs h b h) ∨ (∃ a, Between hs a h h ∧ a < h) := by
  obtain ⟨l, r, rfl⟩ := List.append_of_mem hm
  cases r with
  | cons b r =>
      left
      refine ⟨b, ⟨l, r, rfl⟩, le_refl _, ?_⟩
      have := (List.pairwise_append.1 hp).2.1
      simp only [List.pairwise_cons, List.mem_cons, forall_eq_or_imp] at this
      exact le_of_lt this.1.1
  | nil =>
      right
      have hl : l ≠ [] := by rintro rfl; simp at h2
      obtain ⟨l', a', rfl⟩ : ∃ l' a', l = l' ++ [a'] := ⟨l.dropLast, l.getLast hl, (List.dropLast_append_getLast hl).symm⟩
      have : a' < h := (List.pairwise_append.1 hp).2.2 a' (by simp) h (by simp)
      exact ⟨a', ⟨⟨l', [], by simp⟩, le_of_lt this, le_refl _⟩, this⟩

lemma line_left (a b x y : ℝ) : line a b x y a = x := by simp [line]
lemma line_right (a b x y : ℝ) (h : a < b) : line a b x y b = y := by
  unfold line; rw [div_self (by linarith)]; ring

/-- **C54 (exact at the heights).** At a height of the table the results are the entries of the table: the entry of the variable, the wind
speed and (for positive wind speed, modulo 360) the wind direction. -/
theorem C54_at_heights (cfg : Cfg) (tab : Table) (s : ℕ) (h : ℝ) (r : List (String × ℝ)) (hs : cfg.heights.Pairwise (· < ·))
    (h2 : 2 ≤ cfg.heights.length) (hm : h ∈ cfg.heights) (hr : run cfg tab s h = .ok r) :
    (∀ v, AtHeights cfg tab v → Plain cfg tab v → r.lookup v = some (entry cfg tab s v h)) ∧
    (AtHeights cfg tab "WD" → "WS" ∈ cfg.ovars → 0 < speedAt cfg tab s h →
      r.lookup "WS" = some (speedAt cfg tab s h) ∧ ∃ k : ℤ, r.lookup "WD" = some (entry cfg tab s "WD" h + 360 * k)) := by
  have fin : ∀ wd ws, 0 ≤ ws → 0 ≤ wd → wd < 360 → 0 < speedAt cfg tab s h →
      wd2uv wd ws = wd2uv (entry cfg tab s "WD" h) (speedAt cfg tab s h) → ws = speedAt cfg tab s h ∧ ∃ k : ℤ, wd = entry cfg tab s "WD" h + 360 * k := by
    intro wd ws p p1 p2 hpos hv
    have e : ws = speedAt cfg tab s h := by rw [uv_norm wd ws p, hv, ← uv_norm _ _ hpos.le]
    refine ⟨e, ?_⟩
    have r1 := (Foxes.Props.WindDir.C31_direction_round_trip wd ws (e ▸ hpos)).1 p1 p2
    obtain ⟨k, hk⟩ := (Foxes.Props.WindDir.C31_direction_round_trip (entry cfg tab s "WD" h) _ hpos).2
    exact ⟨k, by rw [← hk, ← r1.1, hv]⟩
  rcases between_mem _ h hs h2 hm with ⟨b, hb⟩ | ⟨a, hb, hlt⟩
  · refine ⟨fun v hv hp => ?_, fun hwd hws hpos => ?_⟩
    · rw [C54_linear cfg tab s h h b r v hs hb hv hp hr, line_left]
    · obtain ⟨wd, ws, e1, e2, p, p1, p2, u, v⟩ := C54_wind_vector cfg tab s h h b r hs hb hwd hws hr
      rw [line_left] at u v
      obtain ⟨e, k, hk⟩ := fin wd ws p p1 p2 hpos (Prod.ext u v)
      exact ⟨by rw [e2, e], k, by rw [e1, hk]⟩
  · refine ⟨fun v hv hp => ?_, fun hwd hws hpos => ?_⟩
    · rw [C54_linear cfg tab s h a h r v hs hb hv hp hr, line_right _ _ _ _ hlt]
    · obtain ⟨wd, ws, e1, e2, p, p1, p2, u, v⟩ := C54_wind_vector cfg tab s h a h r hs hb hwd hws hr
      rw [line_right _ _ _ _ hlt] at u v
      obtain ⟨e, k, hk⟩ := fin wd ws p p1 p2 hpos (Prod.ext u v)
      exact ⟨by rw [e2, e], k, by rw [e1, hk]⟩

lemma contract_unit (n i : ℕ) (hi : i < n) (f : ℕ → ℝ) : contract (unitVec n i) f = f i := by
  rw [contract_two n i i hi hi 1 0 f _ (by simp [unitVec])]
  · ring
  · intro j hj; rw [unitVec_getD _ _ _ hj]; simp

/-- **C54 (outside the heights).** Below the lowest and above the highest height: an error if `bounds_error` is set (the default);
otherwise the results are the entries at the lowest or highest height. -/
theorem C54_outside (cfg : Cfg) (tab : Table) (s : ℕ) (z : ℝ) (h2 : 2 ≤ cfg.heights.length)
    (lo hi e : ℝ) (hlo : cfg.heights.head? = some lo) (hhi : cfg.heights.getLast? = some hi)
    (hz : (z < lo ∧ e = lo) ∨ (lo ≤ z ∧ hi < z ∧ e = hi)) :
    (cfg.boundsError = true → ∃ x, run cfg tab s z = .error x) ∧
    (cfg.boundsError = false → ∀ r, run cfg tab s z = .ok r →
      (∀ v, AtHeights cfg tab v → Plain cfg tab v → r.lookup v = some (entry cfg tab s v e)) ∧
      (AtHeights cfg tab "WD" → "WS" ∈ cfg.ovars → 0 < speedAt cfg tab s e →
        r.lookup "WS" = some (speedAt cfg tab s e) ∧ ∃ k : ℤ, r.lookup "WD" = some (entry cfg tab s "WD" e + 360 * k))) := by
  have hne : cfg.heights ≠ [] := by intro h; simp [h] at h2
  obtain ⟨i, hi', hge, hw⟩ : ∃ i, i < cfg.heights.length ∧ cfg.heights.getD i 0 = e ∧
      weightsAt cfg z = if cfg.boundsError then .error .bounds else .ok (unitVec cfg.heights.length i) := by
    rcases hz with ⟨h1, rfl⟩ | ⟨h1, h3, rfl⟩
    · refine ⟨0, by omega, ?_, ?_⟩
      · rw [List.head?_eq_getElem?] at hlo
        rw [List.getD_eq_getElem?_getD, hlo]; rfl
      · unfold weightsAt; rw [hlo, hhi]; simp only; rw [if_pos h1]
    · refine ⟨cfg.heights.length - 1, by omega, ?_, ?_⟩
      · rw [List.getLast?_eq_getElem?] at hhi
        rw [List.getD_eq_getElem?_getD, hhi]; rfl
      · unfold weightsAt; rw [hlo, hhi]; simp only; rw [if_neg (not_lt.2 h1), if_pos h3]
  constructor
  · intro hb
    rw [hb] at hw
    unfold run
    cases load cfg tab with
    | error x => exact ⟨x, rfl⟩
    | ok ld => exact ⟨.bounds, by simp [calculate, hw]⟩
  · intro hb r hr
    obtain ⟨ld, w, uv, h1, h3, h4, h5⟩ := run_parts _ _ _ _ _ hr
    rw [hw, hb] at h3
    simp only [Bool.false_eq_true, if_false, Except.ok.injEq] at h3
    subst h3
    constructor
    · intro v hv hp
      obtain ⟨x, hx, hrr⟩ := h5 v hv.1
      rw [plain_result cfg tab ld s _ uv v h2 h1 h4 hp hv, contract_unit _ _ hi',
        elem_entry cfg tab ld h2 h1 s v ((mem_vrs cfg tab ld h2 h1 v).2 hv) _ hi', hge] at hrr
      rw [hx, ← Except.ok.inj hrr]
    · intro hwd hws hpos
      obtain ⟨wd, hx, hr1⟩ := h5 "WD" hwd.1
      obtain ⟨ws, hx', hr2⟩ := h5 "WS" hws
      obtain ⟨q, e1, e2, e3, e4⟩ := wind_result cfg tab ld s _ uv h2 h1 h4 hwd (by simp [unitVec])
      rw [contract_unit _ _ hi', hge] at e3 e4
      have hq : q = wd2uv (entry cfg tab s "WD" e) (speedAt cfg tab s e) := Prod.ext e3 e4
      rw [e1, hq] at hr1; rw [e2, hq, ← uv_norm _ _ hpos.le] at hr2
      obtain ⟨k, hk⟩ := (Foxes.Props.WindDir.C31_direction_round_trip (entry cfg tab s "WD" e) _ hpos).2
      exact ⟨by rw [hx', ← Except.ok.inj hr2], k, by rw [hx, ← Except.ok.inj hr1, hk]⟩

/-- **C54 (constants), partial.** A fixed variable has its value and a variable with a single column the entry of the state, at every
height. Missing: the wind speed if the wind direction has columns at heights, see `C54_fixed_wind_speed_changed`. -/
theorem C54_constant_partial (cfg : Cfg) (tab : Table) (s : ℕ) (z : ℝ) (r : List (String × ℝ)) (h2 : 2 ≤ cfg.heights.length)
    (h : run cfg tab s z = .ok r) (v : String) (hv : v ∈ cfg.ovars) (hp : v ≠ "WS" ∨ ¬ AtHeights cfg tab "WD") :
    (∀ x, cfg.fixed v = some x → r.lookup v = some x) ∧ (OneColumn cfg tab v → r.lookup v = some (tab.val s (col cfg v))) := by
  obtain ⟨ld, w, uv, h1, h3, h4, h5⟩ := run_parts _ _ _ _ _ h
  obtain ⟨x, hx, hr⟩ := h5 v hv
  have hpl : ¬ AtHeights cfg tab v → uv = none ∨ (v ≠ "WD" ∧ v ≠ "WS") := by
    intro hn
    by_cases hwd : AtHeights cfg tab "WD"
    · right
      exact ⟨fun e => hn (e ▸ hwd), hp.resolve_right (not_not.2 hwd)⟩
    · left; exact windVec_none _ _ _ _ _ _ h4 (by rw [mem_vrs cfg tab ld h2 h1]; exact hwd)
  constructor
  · intro y hy
    rw [resultOf_plain _ _ _ _ _ _ _ (hpl (fun hh => by rw [hh.2.2.1] at hy; simp at hy)), hy] at hr
    simp only [Except.ok.injEq] at hr
    rw [hx, hr]
  · intro hc
    rw [resultOf_plain _ _ _ _ _ _ _ (hpl (fun hh => hh.2.2.2 hc.2.2.2)), hc.2.2.1, solo_some cfg tab ld h2 h1 v hc] at hr
    simp only [Except.ok.injEq] at hr
    rw [hx, hr]

/-! ### When it works -/

lemma loop_total (cfg : Cfg) (tab : Table) (h2 : 2 ≤ cfg.heights.length) (vs : List String) : ∀ (done : List String) (acc : Loaded),
    (done ++ vs).Nodup → (∀ v ∈ acc.vrs, v ∈ done) → acc.cols = acc.vrs.flatMap (fun v => cfg.heights.map (hcol cfg v)) →
    (∀ v ∈ vs, v ≠ "weight" → cfg.fixed v = none → col cfg v ∉ tab.cols → ∀ h ∈ cfg.heights, hcol cfg v h ∈ tab.cols) →
    ∃ ld, loadLoop cfg tab.cols acc vs = .ok ld ∧ ld.cols = ld.vrs.flatMap (fun v => cfg.heights.map (hcol cfg v)) := by
  induction vs with
  | nil => intro done acc _ _ hc _; exact ⟨acc, rfl, hc⟩
  | cons v vs ih =>
      intro done acc hn hd hc ha
      have hn' : ((done ++ [v]) ++ vs).Nodup := by simpa using hn
      have hvd : v ∉ done := by
        intro hv
        exact (List.nodup_append.1 hn).2.2 v hv v (by simp) rfl
      have rest := fun w (hw : w ∈ vs) => ha w (by simp [hw])
      have step : ∃ acc', loadStep cfg tab.cols acc v = .ok acc' ∧ (∀ w ∈ acc'.vrs, w ∈ done ++ [v]) ∧
          acc'.cols = acc'.vrs.flatMap (fun v => cfg.heights.map (hcol cfg v)) := by
        by_cases hw : v = "weight"
        · exact ⟨acc, by unfold loadStep; rw [if_pos hw], fun w hw => by simp [hd w hw], hc⟩
        · rcases findCols_cases cfg tab.cols v with ⟨a, b⟩ | ⟨a, b, c⟩ | ⟨a, b, c, d⟩ | ⟨a, b, ⟨h, c, d⟩, _⟩
          · exact ⟨acc, by unfold loadStep; rw [if_neg hw, b], fun w hw => by simp [hd w hw], hc⟩
          · exact ⟨{ acc with solo := acc.solo ++ [(v, col cfg v)] }, by unfold loadStep; rw [if_neg hw, c], fun w hw => by simp [hd w hw], hc⟩
          · refine ⟨_, loadStep_height cfg tab.cols acc v h2 hw d, ?_, ?_⟩
            · rw [if_neg (fun hv => hvd (hd v hv))]
              intro w hw
              simp only [List.mem_append, List.mem_singleton] at hw ⊢
              exact hw.imp (hd w) id
            · simp only [if_neg (fun hv => hvd (hd v hv)), hc]
              simp
          · exact absurd (ha v (by simp) hw a b h c) d
      obtain ⟨acc', h1, h3, h4⟩ := step
      obtain ⟨ld, h5, h6⟩ := ih (done ++ [v]) acc' hn' h3 h4 rest
      exact ⟨ld, by unfold loadLoop; rw [h1]; exact h5, h6⟩

/-- **C54 (when it works).** With distinct output variables and at least two heights, loading and calculation succeed exactly if the
columns of all heights exist for every variable that is neither fixed nor has its own column, a weights column exists if it was named,
the height is within bounds or `bounds_error` is off, wind directions at heights come with a wind speed, and the weight is not requested
as an output variable (unless fixed). -/
theorem C54_succeeds_iff (cfg : Cfg) (tab : Table) (s : ℕ) (z lo hi : ℝ) (h2 : 2 ≤ cfg.heights.length) (hn : cfg.ovars.Nodup)
    (hlo : cfg.heights.head? = some lo) (hhi : cfg.heights.getLast? = some hi) :
    (∃ r, run cfg tab s z = .ok r) ↔
      (∀ v, AtHeights cfg tab v → ∀ h ∈ cfg.heights, hcol cfg v h ∈ tab.cols) ∧
      (col cfg "weight" ∈ tab.cols ∨ cfg.var2col "weight" = none) ∧
      (cfg.boundsError = false ∨ (lo ≤ z ∧ z ≤ hi)) ∧
      (AtHeights cfg tab "WD" → "WS" ∈ cfg.ovars ∨ (cfg.fixed "WS").isSome) ∧
      ("weight" ∈ cfg.ovars → (cfg.fixed "weight").isSome) := by
  have hws : ∀ ld, load cfg tab = .ok ld → ((∃ ws, wsAt cfg tab ld s = .ok ws) ↔ ("WS" ∈ cfg.ovars ∨ (cfg.fixed "WS").isSome)) := by
    intro ld hl
    unfold wsAt
    by_cases hm : "WS" ∈ ld.vrs
    · rw [if_pos hm]; simp [((mem_vrs cfg tab ld h2 hl _).1 hm).1]
    · rw [if_neg hm]
      cases hf : cfg.fixed "WS" with
      | some x => simp
      | none =>
          by_cases hc : OneColumn cfg tab "WS"
          · rw [solo_some cfg tab ld h2 hl _ hc]; simp [hc.1]
          · rw [solo_none cfg tab ld h2 hl _ hc]
            simp only [reduceCtorEq, exists_false, Option.isSome_none, Bool.false_eq_true, or_false, false_iff]
            intro ho
            rw [mem_vrs cfg tab ld h2 hl] at hm
            by_cases hcc : col cfg "WS" ∈ tab.cols
            · exact hc ⟨ho, by decide, hf, hcc⟩
            · exact hm ⟨ho, by decide, hf, hcc⟩
  constructor
  · rintro ⟨r, hr⟩
    obtain ⟨ld, w, uv, h1, h3, h4, h5⟩ := run_parts _ _ _ _ _ hr
    refine ⟨fun v hv => (inv_load cfg tab ld h2 h1).1.present v ((mem_vrs cfg tab ld h2 h1 v).2 hv), ?_, ?_, ?_, ?_⟩
    · by_contra hcon
      push Not at hcon
      unfold load at h1
      rw [if_pos ⟨hcon.1, Option.isSome_iff_ne_none.2 hcon.2⟩] at h1
      simp at h1
    · by_contra hcon
      push Not at hcon
      have hb : cfg.boundsError = true := by simpa using hcon.1
      unfold weightsAt at h3
      rw [hlo, hhi] at h3
      simp only [hb, if_true] at h3
      by_cases hz : z < lo
      · rw [if_pos hz] at h3; simp at h3
      · rw [if_neg hz, if_pos (hcon.2 (not_lt.1 hz))] at h3; simp at h3
    · intro hwd
      apply (hws ld h1).1
      unfold windVec at h4
      rw [if_pos ((mem_vrs cfg tab ld h2 h1 _).2 hwd)] at h4
      cases e : wsAt cfg tab ld s with
      | error x => rw [e] at h4; simp at h4
      | ok ws => exact ⟨ws, rfl⟩
    · intro hwt
      obtain ⟨x, hx, hr⟩ := h5 _ hwt
      rw [resultOf_plain _ _ _ _ _ _ _ (Or.inr ⟨by decide, by decide⟩)] at hr
      cases hf : cfg.fixed "weight" with
      | some x => simp
      | none =>
          rw [hf, solo_none cfg tab ld h2 h1 _ (fun h => h.2.1 rfl)] at hr
          simp only at hr
          rw [if_neg (by rw [mem_vrs cfg tab ld h2 h1]; exact fun h => h.2.1 rfl)] at hr
          simp at hr
  · rintro ⟨c1, c2, c3, c4, c5⟩
    obtain ⟨ld, hl, hcols⟩ := loop_total cfg tab h2 cfg.ovars [] ⟨[], [], []⟩ (by simpa using hn) (by simp) (by simp)
      (fun v hv hw hf hc => c1 v ⟨hv, hw, hf, hc⟩)
    have hload : load cfg tab = .ok ld := by
      unfold load
      rw [if_neg, hl]
      · simp only
        have : ld.cols.length = ld.vrs.length * cfg.heights.length := by rw [hcols, List.length_flatMap]; simp
        rw [if_pos (by rw [this]; exact Nat.mul_div_cancel _ (by omega))]
      · rintro ⟨a, b⟩
        rcases c2 with h | h
        · exact a h
        · rw [h] at b; simp at b
    obtain ⟨w, hw⟩ : ∃ w, weightsAt cfg z = .ok w := by
      unfold weightsAt
      rw [hlo, hhi]
      simp only
      rcases c3 with h | ⟨h, h'⟩
      · rw [h]
        by_cases hz : z < lo
        · exact ⟨_, by rw [if_pos hz]; rfl⟩
        · by_cases hz' : hi < z
          · exact ⟨_, by rw [if_neg hz, if_pos hz']; rfl⟩
          · exact ⟨_, by rw [if_neg hz, if_neg hz']⟩
      · exact ⟨_, by rw [if_neg (not_lt.2 h), if_neg (not_lt.2 h')]⟩
    obtain ⟨uv, hu⟩ : ∃ uv, windVec cfg tab ld s w = .ok uv := by
      unfold windVec
      by_cases hm : "WD" ∈ ld.vrs
      · rw [if_pos hm]
        obtain ⟨ws, hws⟩ := (hws ld hload).2 (c4 ((mem_vrs cfg tab ld h2 hload _).1 hm))
        exact ⟨_, by rw [hws]⟩
      · exact ⟨_, by rw [if_neg hm]⟩
    have hfin : ∃ r, collect (resultOf cfg tab ld s w uv) cfg.ovars = .ok r := by
      rw [collect_succeeds]
      intro v hv
      have plain : ∃ x, (open scoped Classical in match cfg.fixed v, ld.solo.lookup v with
          | some x, _ => Except.ok x
          | none, some c => .ok (tab.val s c)
          | none, none =>
              if v ∈ ld.vrs then .ok (contract w (fun j => elem cfg tab ld s (ld.vrs.idxOf v) j)) else .error Err.index) = .ok x := by
        cases hf : cfg.fixed v with
        | some x => exact ⟨x, rfl⟩
        | none =>
            have hwt : v ≠ "weight" := by
              rintro rfl
              have := c5 hv
              rw [hf] at this; simp at this
            by_cases hc : col cfg v ∈ tab.cols
            · rw [solo_some cfg tab ld h2 hload v ⟨hv, hwt, hf, hc⟩]; exact ⟨_, rfl⟩
            · rw [solo_none cfg tab ld h2 hload v (fun h => hc h.2.2.2)]
              simp only
              rw [if_pos ((mem_vrs cfg tab ld h2 hload v).2 ⟨hv, hwt, hf, hc⟩)]
              exact ⟨_, rfl⟩
      cases uv with
      | none => rw [resultOf_plain _ _ _ _ _ _ _ (Or.inl rfl)]; exact plain
      | some q =>
          by_cases h1 : v = "WD"
          · subst h1; exact ⟨_, rfl⟩
          · by_cases h3 : v = "WS"
            · subst h3; exact ⟨_, rfl⟩
            · rw [resultOf_plain _ _ _ _ _ _ _ (Or.inr ⟨h1, h3⟩)]; exact plain
    obtain ⟨r, hr⟩ := hfin
    exact ⟨r, by unfold run; rw [hload]; simp only [calculate, hw, hu]; exact hr⟩

/-- **C54 (weights).** The weight of a state is the entry of the weights column; without such a column the weights are equal and sum up
to one. -/
theorem C54_weights (cfg : Cfg) (tab : Table) :
    (col cfg "weight" ∈ tab.cols → ∀ s, weight cfg tab s = tab.val s (col cfg "weight")) ∧
    (col cfg "weight" ∉ tab.cols → 0 < tab.N → (∀ s s', weight cfg tab s = weight cfg tab s') ∧
      ((List.range tab.N).map (weight cfg tab)).sum = 1) := by
  refine ⟨fun h s => by simp [weight, h], fun h hN => ⟨fun s s' => by simp [weight, h], ?_⟩⟩
  have : (List.range tab.N).map (weight cfg tab) = List.replicate tab.N (1 / (tab.N : ℝ)) := by
    rw [List.eq_replicate_iff]
    refine ⟨by simp, fun x hx => ?_⟩
    simp only [List.mem_map] at hx
    obtain ⟨s, _, rfl⟩ := hx
    simp [weight, h]
  rw [this]
  have : (tab.N : ℝ) ≠ 0 := by positivity
  simp [this]

/-! ### Findings -/

/-- two heights, the wind direction turns by 180 degrees, the wind speed is fixed -/
noncomputable def turning : Cfg :=
  { ovars := ["WD", "WS"], heights := [50, 100], hname := fun h => open scoped Classical in if h = 50 then "50" else "100",
    var2col := fun _ => none, fixed := fun v => if v = "WS" then some 10 else none, boundsError := true }
noncomputable def turningTab : Table :=
  { cols := ["WD-50", "WD-100"], N := 1, val := fun _ c => if c = "WD-50" then 0 else 180 }

lemma turning_at : AtHeights turning turningTab "WD" := by
  refine ⟨by simp [turning], by decide, by simp [turning], ?_⟩
  simp [turning, turningTab, col]

lemma turning_between : Between turning.heights 50 100 75 := ⟨⟨[], [], rfl⟩, by norm_num, by norm_num⟩

lemma turning_sorted : turning.heights.Pairwise (· < ·) := by simp [turning]; norm_num

lemma turning_runs : ∃ r, run turning turningTab 0 75 = .ok r := by
  rw [C54_succeeds_iff turning turningTab 0 75 50 100 (by simp [turning]) (by simp [turning]) rfl rfl]
  refine ⟨?_, by simp [turning], Or.inr (by norm_num), by simp [turning], by simp [turning]⟩
  rintro v ⟨h1, h2, h3, h4⟩ h hh
  have : v = "WD" := by
    simp only [turning, List.mem_cons, List.not_mem_nil, or_false] at h1 h3
    rcases h1 with h | h
    · exact h
    · subst h; simp at h3
  subst this
  simp only [turning, List.mem_cons, List.not_mem_nil, or_false] at hh
  rcases hh with rfl | rfl
  · simp [hcol, col, turning, turningTab]
  · simp [hcol, col, turning, turningTab]

/-- **C54 (finding).** A fixed wind speed is not what is returned, if the wind direction has columns at heights: half way between opposite
directions the wind speed is zero although the fixed value is 10. -/
theorem C54_fixed_wind_speed_changed :
    turning.fixed "WS" = some 10 ∧ ∃ r, run turning turningTab 0 75 = .ok r ∧ r.lookup "WS" = some 0 := by
  refine ⟨by simp [turning], ?_⟩
  obtain ⟨r, hr⟩ := turning_runs
  refine ⟨r, hr, ?_⟩
  obtain ⟨wd, ws, e1, e2, p, p1, p2, u, v⟩ := C54_wind_vector turning turningTab 0 75 50 100 r turning_sorted turning_between turning_at
    (by simp [turning]) hr
  have hsp : ∀ h, speedAt turning turningTab 0 h = 10 := by intro h; simp [speedAt, turning]
  have h50 : entry turning turningTab 0 "WD" 50 = 0 := by simp [entry, hcol, col, turning, turningTab]
  have h100 : entry turning turningTab 0 "WD" 100 = 180 := by
    have : (100 : ℝ) ≠ 50 := by norm_num
    simp [entry, hcol, col, turning, turningTab]
  have c := Foxes.Props.WindDir.C31_convention 0 10
  rw [h50, h100, hsp, hsp, c.1, c.2.2.1] at u v
  have : ws = 0 := by
    rw [uv_norm wd ws p, u, v]; simp only [line]; norm_num
  rw [e2, this]

/-- **C54 (finding).** Heights out of bounds raise also if no variable depends on height. -/
theorem C54_bounds_without_height_data (cfg : Cfg) (tab : Table) (s : ℕ) (z lo : ℝ) (hlo : cfg.heights.head? = some lo) (hz : z < lo)
    (hb : cfg.boundsError = true) : ∃ x, run cfg tab s z = .error x := by
  unfold run
  cases load cfg tab with
  | error x => exact ⟨x, rfl⟩
  | ok ld =>
      have : ∃ hi, cfg.heights.getLast? = some hi := by
        cases h : cfg.heights with
        | nil => rw [h] at hlo; simp at hlo
        | cons a l => exact ⟨_, List.getLast?_eq_some_getLast (by simp)⟩
      obtain ⟨hi, hhi⟩ := this
      exact ⟨.bounds, by simp [calculate, weightsAt, hlo, hhi, hz, hb]⟩

/-- **C54 (finding).** `MultiHeightNCStates` raises for every variable given as an attribute of the dataset. -/
theorem C54_nc_attribute_raises (var2col : String → Option String) (fixed attrs : List String) (vars : List (String × NcDims)) (v : String)
    (hf : v ∉ fixed) (hw : v ≠ "weight") (ha : (var2col v).getD v ∈ attrs) : ncSource var2col fixed attrs vars v = none := by
  unfold ncSource; rw [if_neg (by tauto), if_pos ha]

/-- **C54 (netCDF sources), partial.** A variable that is not an attribute and not fixed is used by its dimensions: by state, or by state
and height in this order; everything else raises. Missing: attributes. -/
theorem C54_nc_source_partial (var2col : String → Option String) (fixed attrs : List String) (vars : List (String × NcDims)) (v : String)
    (hf : v ∉ fixed) (hw : v ≠ "weight") (ha : (var2col v).getD v ∉ attrs) :
    (ncSource var2col fixed attrs vars v = some .solo ↔ vars.lookup ((var2col v).getD v) = some .state) ∧
    (ncSource var2col fixed attrs vars v = some .heights ↔ vars.lookup ((var2col v).getD v) = some .stateHeight) ∧
    ncSource var2col fixed attrs vars v ≠ some .fixed := by
  unfold ncSource
  rw [if_neg (by tauto), if_neg ha]
  cases vars.lookup ((var2col v).getD v) with
  | none => simp
  | some d => cases d <;> simp

/-! ### Concrete cases -/

/-- two variables at two heights, a single column and a fixed variable -/
noncomputable def demo : Cfg :=
  { ovars := ["WS", "TI", "RHO", "WD"], heights := [50, 100], hname := fun h => open scoped Classical in if h = 50 then "50" else "100",
    var2col := fun v => if v = "TI-100" then some "turb" else none, fixed := fun v => if v = "WD" then some 270 else none, boundsError := true }
noncomputable def demoTab : Table :=
  { cols := ["turb", "WS-50", "WS-100", "RHO", "TI-50"], N := 2,
    val := fun s c => if c = "WS-50" then 8 + s else if c = "WS-100" then 10 + s else if c = "TI-50" then 0.1 else if c = "turb" then 0.06 else 1.2 }

lemma demo_at : AtHeights demo demoTab "TI" ∧ AtHeights demo demoTab "WS" ∧ OneColumn demo demoTab "RHO" ∧ ¬ AtHeights demo demoTab "WD" := by
  refine ⟨⟨by simp [demo], by decide, by simp [demo], by simp [demo, demoTab, col]⟩,
    ⟨by simp [demo], by decide, by simp [demo], by simp [demo, demoTab, col]⟩,
    ⟨by simp [demo], by decide, by simp [demo], by simp [demo, demoTab, col]⟩, fun h => ?_⟩
  have := h.2.2.1
  simp [demo] at this

lemma demo_runs (s : ℕ) (z : ℝ) (h1 : 50 ≤ z) (h2 : z ≤ 100) : ∃ r, run demo demoTab s z = .ok r := by
  rw [C54_succeeds_iff demo demoTab s z 50 100 (by simp [demo]) (by simp [demo]) rfl rfl]
  refine ⟨?_, by simp [demo], Or.inr ⟨h1, h2⟩, by simp [demo], by simp [demo]⟩
  rintro v ⟨h1, h2, h3, h4⟩ h hh
  have hne : (100 : ℝ) ≠ 50 := by norm_num
  simp only [demo, List.mem_cons, List.not_mem_nil, or_false] at h1 hh
  rcases h1 with rfl | rfl | rfl | rfl
  · rcases hh with rfl | rfl <;> simp [hcol, col, demo, demoTab]
  · rcases hh with rfl | rfl <;> simp [hcol, col, demo, demoTab]
  · simp [col, demo, demoTab] at h4
  · simp [demo] at h3

/-- a state of the demo between the heights: turbulence from its own two columns (one of them renamed), speed of the second state -/
example : ∃ r, run demo demoTab 1 75 = .ok r ∧ r.lookup "TI" = some 0.08 ∧ r.lookup "WS" = some 10 ∧ r.lookup "RHO" = some 1.2 ∧
    r.lookup "WD" = some 270 := by
  obtain ⟨r, hr⟩ := demo_runs 1 75 (by norm_num) (by norm_num)
  have hb : Between demo.heights 50 100 75 := ⟨⟨[], [], rfl⟩, by norm_num, by norm_num⟩
  have hs : demo.heights.Pairwise (· < ·) := by simp [demo]; norm_num
  have hne : (100 : ℝ) ≠ 50 := by norm_num
  have c := fun v hv hp => C54_constant_partial demo demoTab 1 75 r (by simp [demo]) hr v hv hp
  refine ⟨r, hr, ?_, ?_, ?_, ?_⟩
  · rw [C54_linear demo demoTab 1 75 50 100 r "TI" hs hb demo_at.1 (Or.inl demo_at.2.2.2) hr]
    simp [entry, hcol, col, demo, demoTab, line]; norm_num
  · rw [C54_linear demo demoTab 1 75 50 100 r "WS" hs hb demo_at.2.1 (Or.inl demo_at.2.2.2) hr]
    simp [entry, hcol, col, demo, demoTab, line]; norm_num
  · rw [(c "RHO" demo_at.2.2.1.1 (Or.inl (by decide))).2 demo_at.2.2.1]
    simp [col, demo, demoTab]
  · exact (c "WD" (by simp [demo]) (Or.inl (by decide))).1 270 (by simp [demo])

end Foxes.Props.MultiHeight
