import Verif.Model.Sectors
import Verif.Props.TurbineModels
import Mathlib.Data.List.Induction
/-
C44, continued: SectorManagement with several range variables and targets.
-/
namespace Foxes.Props.Sectors
open Foxes.Sectors Foxes.TurbineModels Foxes.Props.TurbineModels Foxes.WindDir

variable {V : Type} [DecidableEq V]

/-! ## Specification -/

/-- the value `d` is in the range from `lo` to `hi`: for a variable with a period, on the arc that starts at `lo` and ends at the next value equivalent
to `hi` (nothing, if they are equivalent) -/
def Within : Option ℝ → ℝ × ℝ → ℝ → Prop
  | none, r, d => r.1 ≤ d ∧ d < r.2
  | some p, r, d => ∃ (w : ℝ) (k : ℤ), 0 ≤ w ∧ w < p ∧ r.2 = r.1 + w + p * k ∧ inArc p r.1 w d

/-- all range variables of turbine `t` are in the ranges of the row of the table -/
def Applies (rvars : List (V × Option ℝ)) (fd : V → ℕ → ℝ) (t : ℕ) (ranges : List (ℝ × ℝ)) : Prop :=
  ∀ (j : ℕ) (v : V) (p : Option ℝ) (r : ℝ × ℝ), rvars[j]? = some (v, p) → ranges[j]? = some r → Within p r (fd v t)

/-- all periods are positive -/
def PosPeriods (rvars : List (V × Option ℝ)) : Prop := ∀ x ∈ rvars, ∀ p, x.2 = some p → 0 < p

/-! ## One variable -/

theorem npMod_shift (x p : ℝ) (hp : 0 < p) (k : ℤ) : npMod (x + p * k) p = npMod x p := by
  have := Foxes.Props.WindDir.npMod_periodic x p hp k
  rw [mul_comm p]; simpa [mul_comm] using this

/-- **C44 (sectors, any limits).** For a variable with a period, and limits of any size and order, a value is recognised exactly if it lies on the arc from the
lower to the next value equivalent to the upper limit; for other variables exactly if it is not below the lower, and below the upper limit. -/
theorem C44_range (period : Option ℝ) (hp : ∀ p, period = some p → 0 < p) (r : ℝ × ℝ) (d : ℝ) : inRange period (loadRange period r) d ↔ Within period r d := by
  cases period with
  | none => simp only [inRange, loadRange, Within, ge_iff_le]
  | some p =>
    have hp := hp p rfl
    obtain ⟨k, ek⟩ := Foxes.Props.WindDir.npMod_congr (r.2 - r.1) p
    have hr := Foxes.Props.WindDir.npMod_range (r.2 - r.1) p hp
    set w := npMod (r.2 - r.1) p with hw
    have h2 : r.2 = r.1 + w + p * ((-k : ℤ) : ℝ) := by push_cast; linarith
    have hmod : npMod r.2 p = npMod (r.1 + w) p := by rw [h2, npMod_shift _ _ hp]
    have key : inRange (some p) (loadRange (some p) r) d ↔ inArc p r.1 w d := by
      have := C44_sector_partial p hp 0 r.1 w 0 d hr.1 hr.2
      rw [← this]
      simp only [inRange, loadRange, loadRow, hmod, inSector]
      by_cases hlt : npMod (r.1 + w) p < npMod r.1 p
      · simp only [hlt, if_true]
      · simp only [hlt, if_false]
    rw [key]
    constructor
    · intro h
      exact ⟨w, -k, hr.1, hr.2, h2, h⟩
    · rintro ⟨w', k', h0, h1, h3, h4⟩
      have : w' = w := by
        have e : w' - w = p * ((-k - k' : ℤ) : ℝ) := by push_cast; push_cast at h2; linarith
        have hz : (-k - k' : ℤ) = 0 := by
          have a : -1 < (-k - k' : ℤ) := by
            by_contra hc
            have : ((-k - k' : ℤ) : ℝ) ≤ -1 := by exact_mod_cast not_lt.1 hc
            nlinarith [hr.1, hr.2]
          have b : (-k - k' : ℤ) < 1 := by
            by_contra hc
            have : (1 : ℝ) ≤ ((-k - k' : ℤ) : ℝ) := by exact_mod_cast not_lt.1 hc
            nlinarith [hr.1, hr.2]
          omega
        rw [hz] at e; simp at e; linarith
      rwa [this] at h4

/-! ## Loading -/

/-- **C44 (loading).** Exactly one of the columns with turbine numbers and turbine names must be specified; a rule is for the turbine of that number, or the first turbine
of that name; an unknown name is an error. -/
theorem C44_load (colInds colNames : Bool) (tnames : List String) (periods : List (Option ℝ)) (rows : List TableRow) :
    (colInds = colNames → load colInds colNames tnames periods rows = none) ∧
    (∀ rules, load colInds colNames tnames periods rows = some rules → List.Forall₂ (fun (r : TableRow) (q : Rule) =>
      (colNames = true → ∃ n, r.name = some n ∧ tnames[q.turbine]? = some n ∧ ∀ i < q.turbine, tnames[i]? ≠ some n) ∧ (colNames = false → r.index = some q.turbine) ∧
      q.values = r.values ∧ q.ranges = List.zipWith loadRange periods r.ranges) rows rules) := by
  constructor
  · intro h; simp [load, h]
  · intro rules h
    by_cases he : colInds = colNames
    · simp [load, he] at h
    · rw [load, if_neg he] at h
      clear he
      induction rows generalizing rules with
      | nil => simp at h; subst h; exact List.Forall₂.nil
      | cons r rs ih =>
        rw [List.mapM_cons] at h
        cases ht : rowTurbine colNames tnames r with
        | none => rw [ht] at h; simp at h
        | some t =>
          rw [ht] at h
          simp only [Option.map_some, Option.bind_eq_bind, Option.bind_some] at h
          cases hm : rs.mapM fun r => (rowTurbine colNames tnames r).map fun t => (⟨t, List.zipWith loadRange periods r.ranges, r.values⟩ : Rule) with
          | none => rw [hm] at h; simp at h
          | some qs =>
            rw [hm] at h
            simp only [Option.bind_some, Option.pure_def, Option.some.injEq] at h
            subst h
            refine List.Forall₂.cons ⟨?_, ?_, rfl, rfl⟩ (ih qs hm)
            · intro hc
              rw [rowTurbine, if_pos hc] at ht
              cases hn : r.name with
              | none => rw [hn] at ht; cases ht
              | some n =>
                rw [hn, Option.bind_some, List.findIdx?_eq_some_iff_getElem] at ht
                obtain ⟨h1, h2, h3⟩ := ht
                refine ⟨n, rfl, ?_, ?_⟩
                · rw [List.getElem?_eq_getElem h1]; simpa using h2
                · intro i hi e
                  have hil : i < tnames.length := lt_trans hi h1
                  rw [List.getElem?_eq_getElem hil] at e
                  have := h3 i hi
                  simp at this e
                  exact this e
            · intro hc
              rwa [rowTurbine, if_neg (by simp [hc])] at ht

/-! ## Rules -/

/-- a loaded rule matches exactly if all variables are in the ranges of the table -/
theorem matches_iff (rvars : List (V × Option ℝ)) (hp : PosPeriods rvars) (fd : V → ℕ → ℝ) (t : ℕ) (ranges : List (ℝ × ℝ)) (values : List ℝ) :
    matchesRule rvars fd ⟨t, List.zipWith loadRange (rvars.map (·.2)) ranges, values⟩ ↔ Applies rvars fd t ranges := by
  constructor
  · intro h j v p r hv hr
    have hz : (rvars.zip (List.zipWith loadRange (rvars.map (·.2)) ranges))[j]? = some ((v, p), loadRange p r) := by
      simp [List.getElem?_zip_eq_some, List.getElem?_zipWith, hv, hr]
    have := h _ (List.mem_of_getElem? hz)
    exact (C44_range p (fun q hq => hp (v, p) (List.mem_of_getElem? hv) q hq) r _).1 this
  · intro h x hx
    obtain ⟨j, hj⟩ := List.mem_iff_getElem?.1 hx
    obtain ⟨⟨v, p⟩, r'⟩ := x
    rw [List.getElem?_zip_eq_some] at hj
    obtain ⟨h1, h2⟩ := hj
    rw [List.getElem?_zipWith] at h2
    simp only [List.getElem?_map, h1, Option.map_some] at h2
    cases hr : ranges[j]? with
    | none => rw [hr] at h2; simp at h2
    | some r =>
      rw [hr] at h2
      simp only [Option.some.injEq] at h2
      subst h2
      exact (C44_range p (fun q hq => hp (v, p) (List.mem_of_getElem? h1) q hq) r _).2 (h j v p r h1 hr)

open scoped Classical in
theorem setTarget_eq (sel : Rule → Prop) (rules : List Rule) (vi : ℕ) (a : ℕ → ℝ) (i : ℕ) :
    setTarget sel rules vi a i = (((rules.filter (fun r => r.turbine = i ∧ sel r ∧ vi < r.values.length)).getLast?).bind fun r => r.values[vi]?).getD (a i) := by
  unfold setTarget
  induction rules using List.reverseRecOn with
  | nil => simp
  | append_singleton l r ih =>
    rw [List.foldl_append, List.filter_append]
    simp only [List.foldl_cons, List.foldl_nil]
    by_cases h : r.turbine = i ∧ sel r
    · rw [if_pos h]
      by_cases hl : vi < r.values.length
      · rw [List.filter_cons_of_pos (by simpa using ⟨h.1, h.2, hl⟩)]
        simp [hl]
      · rw [List.filter_cons_of_neg (by simp only [decide_eq_true_eq]; exact fun hh => hl hh.2.2)]
        rw [List.getD_eq_getElem?_getD, List.getElem?_eq_none (by omega), Option.getD_none, ih]
        simp
    · rw [if_neg h, ih, List.filter_cons_of_neg (by simp; tauto)]
      simp

/-- variables that are no targets stay as they are, targets are set by the rules -/
theorem calculate_spec (rvars : List (V × Option ℝ)) (tvars : List V) (hn : tvars.Nodup) (rules : List Rule) (fd : V → ℕ → ℝ) :
    (∀ v, v ∉ tvars → calculate rvars tvars rules fd v = fd v) ∧ ∀ (vi : ℕ) v, tvars[vi]? = some v → calculate rvars tvars rules fd v = setTarget (matchesRule rvars fd) rules vi (fd v) := by
  have key : ∀ (l : List V), l.Nodup → ∀ (k : ℕ) (g : V → ℕ → ℝ),
      (∀ v, v ∉ l → (l.zipIdx k).foldl (fun g x => Function.update g x.1 (setTarget (matchesRule rvars fd) rules x.2 (g x.1))) g v = g v) ∧
      ∀ (vi : ℕ) v, l[vi]? = some v → (l.zipIdx k).foldl (fun g x => Function.update g x.1 (setTarget (matchesRule rvars fd) rules x.2 (g x.1))) g v = setTarget (matchesRule rvars fd) rules (vi + k) (g v) := by
    intro l
    induction l with
    | nil => intro _ k g; simp
    | cons a l ih =>
      intro hl k g
      rw [List.nodup_cons] at hl
      obtain ⟨i1, i2⟩ := ih hl.2 (k + 1) (Function.update g a (setTarget (matchesRule rvars fd) rules k (g a)))
      simp only [List.zipIdx_cons, List.foldl_cons]
      constructor
      · intro v hv
        rw [List.mem_cons, not_or] at hv
        rw [i1 v hv.2, Function.update_of_ne hv.1]
      · intro vi v hv
        cases vi with
        | zero =>
          simp only [List.getElem?_cons_zero, Option.some.injEq] at hv
          subst hv
          rw [i1 a hl.1, Function.update_self, Nat.zero_add]
        | succ vi =>
          simp only [List.getElem?_cons_succ] at hv
          have hva : v ≠ a := fun e => hl.1 (e ▸ List.mem_of_getElem? hv)
          rw [i2 vi v hv, Function.update_of_ne hva]
          congr 1; omega
  obtain ⟨h1, h2⟩ := key tvars hn 0 fd
  exact ⟨h1, fun vi v hv => by simpa [calculate] using h2 vi v hv⟩

/-- the rules of a table with numbers -/
noncomputable def rulesOf (rvars : List (V × Option ℝ)) (rows : List (ℕ × List (ℝ × ℝ) × List ℝ)) : List Rule :=
  rows.map fun r => ⟨r.1, List.zipWith loadRange (rvars.map (·.2)) r.2.1, r.2.2⟩

/-- **C44 (several variables).** One call sets, at array position `i`, target number `vi` to the value of the last row with number `i` of which *all* ranges contain the
variables' values before the call; without such a row it stays. Other variables stay. -/
theorem C44_call (rvars : List (V × Option ℝ)) (hp : PosPeriods rvars) (tvars : List V) (hn : tvars.Nodup) (rows : List (ℕ × List (ℝ × ℝ) × List ℝ))
    (fd : V → ℕ → ℝ) :
    (∀ v, v ∉ tvars → calculate rvars tvars (rulesOf rvars rows) fd v = fd v) ∧
    ∀ (vi : ℕ) v (i : ℕ), tvars[vi]? = some v →
      (∀ l1 r l2 x, rows = l1 ++ r :: l2 → r.1 = i → Applies rvars fd i r.2.1 → r.2.2[vi]? = some x → (∀ q ∈ l2, q.1 = i → ¬ Applies rvars fd i q.2.1) →
        calculate rvars tvars (rulesOf rvars rows) fd v i = x) ∧
      ((∀ r ∈ rows, r.1 = i → ¬ Applies rvars fd i r.2.1) → calculate rvars tvars (rulesOf rvars rows) fd v i = fd v i) := by
  classical
  obtain ⟨h1, h2⟩ := calculate_spec rvars tvars hn (rulesOf rvars rows) fd
  refine ⟨h1, fun vi v i hvi => ?_⟩
  have hlen : vi < tvars.length := (List.getElem?_eq_some_iff.1 hvi).1
  have hm : ∀ (r : ℕ × List (ℝ × ℝ) × List ℝ), matchesRule rvars fd ⟨r.1, List.zipWith loadRange (rvars.map (·.2)) r.2.1, r.2.2⟩ ↔ Applies rvars fd r.1 r.2.1 := fun r => matches_iff rvars hp fd _ _ _
  have hno : ∀ l : List (ℕ × List (ℝ × ℝ) × List ℝ), (∀ r ∈ l, r.1 = i → ¬ Applies rvars fd i r.2.1) →
      ((rulesOf rvars l).filter fun r => r.turbine = i ∧ matchesRule rvars fd r ∧ vi < r.values.length) = [] := by
    intro l hl
    rw [List.filter_eq_nil_iff]
    intro q hq
    obtain ⟨r, hr, rfl⟩ := List.mem_map.1 hq
    simp only [decide_eq_true_eq]
    rintro ⟨e, hmm, _⟩
    have := (hm r).1 hmm
    rw [e] at this
    exact hl r hr e this
  rw [h2 vi v hvi, setTarget_eq]
  constructor
  · intro l1 r l2 x e hr ha hx hl2
    rw [e, rulesOf, List.map_append, List.map_cons, List.filter_append]
    have hmr := (hm r).2 (by rw [hr]; exact ha)
    have hxl : vi < r.2.2.length := (List.getElem?_eq_some_iff.1 hx).1
    rw [List.filter_cons_of_pos (by simp only [decide_eq_true_eq]; exact ⟨hr, hmr, hxl⟩)]
    have := hno l2 hl2
    rw [rulesOf] at this
    rw [this]
    simp [hx]
  · intro h
    rw [hno rows h]; simp

/-! ## Calculations -/

/-- **C44 (calculation).** If the range variables are no targets and nothing else changes them or the targets (wind directions of states, say), the many calls of a calculation are
as good as one. -/
theorem C44_once (rvars : List (V × Option ℝ)) (tvars : List V) (hn : tvars.Nodup) (rules : List Rule) (hd : ∀ x ∈ rvars, x.1 ∉ tvars)
    (others : List ((V → ℕ → ℝ) → V → ℕ → ℝ)) (ho : ∀ f ∈ others, ∀ fd v, (v ∈ tvars ∨ ∃ x ∈ rvars, x.1 = v) → f fd v = fd v) (hne : others ≠ []) (fd : V → ℕ → ℝ) (v : V) (hv : v ∈ tvars) :
    passes rvars tvars rules others fd v = calculate rvars tvars rules fd v := by
  have hmatch : ∀ fd fd' : V → ℕ → ℝ, (∀ x ∈ rvars, fd x.1 = fd' x.1) → matchesRule rvars fd = matchesRule rvars fd' := by
    intro fd fd' h
    funext r
    unfold matchesRule
    refine propext (forall₂_congr fun x hx => ?_)
    rw [h x.1 (List.of_mem_zip hx).1]
  have hset : ∀ (sel : Rule → Prop) vi (a : ℕ → ℝ), setTarget sel rules vi (setTarget sel rules vi a) = setTarget sel rules vi a := by
    intro sel vi a
    classical
    funext i
    rw [setTarget_eq, setTarget_eq]
    cases ((List.filter (fun r => decide (r.turbine = i ∧ sel r ∧ vi < r.values.length)) rules).getLast?.bind fun r => r.values[vi]?) <;> simp
  -- invariant: range variables as at the start, targets before or after one call
  have key : ∀ (l : List ((V → ℕ → ℝ) → V → ℕ → ℝ)), (∀ f ∈ l, ∀ fd v, (v ∈ tvars ∨ ∃ x ∈ rvars, x.1 = v) → f fd v = fd v) → ∀ g : V → ℕ → ℝ, (∀ x ∈ rvars, g x.1 = fd x.1) →
      (∀ vi v, tvars[vi]? = some v → setTarget (matchesRule rvars fd) rules vi (g v) = setTarget (matchesRule rvars fd) rules vi (fd v)) →
      l ≠ [] → ∀ vi v, tvars[vi]? = some v → passes rvars tvars rules l g v = setTarget (matchesRule rvars fd) rules vi (fd v) := by
    intro l
    induction l with
    | nil => intro _ g _ _ h; exact absurd rfl h
    | cons f l ih =>
      intro hf g hg ht _ vi v hvi
      have hff := hf f List.mem_cons_self
      have hr : ∀ x ∈ rvars, f g x.1 = fd x.1 := fun x hx => by rw [hff g x.1 (Or.inr ⟨x, hx, rfl⟩), hg x hx]
      obtain ⟨c1, c2⟩ := calculate_spec rvars tvars hn rules (f g)
      have c3 : ∀ vi v, tvars[vi]? = some v → calculate rvars tvars rules (f g) v = setTarget (matchesRule rvars fd) rules vi (fd v) := by
        intro vi v hvi
        rw [c2 vi v hvi, hmatch (f g) fd hr, hff g v (Or.inl (List.mem_of_getElem? hvi)), ht vi v hvi]
      show passes rvars tvars rules l (calculate rvars tvars rules (f g)) v = _
      by_cases hl : l = []
      · subst hl; exact c3 vi v hvi
      · refine ih (fun f' hf' => hf f' (List.mem_cons_of_mem _ hf')) _ ?_ ?_ hl vi v hvi
        · intro x hx; rw [c1 x.1 (hd x hx), hr x hx]
        · intro vi v hvi; rw [c3 vi v hvi, hset]
  obtain ⟨vi, hvi⟩ := List.mem_iff_getElem?.1 hv
  rw [key others ho fd (fun _ _ => rfl) (fun _ _ _ => rfl) hne vi v hvi, (calculate_spec rvars tvars hn rules fd).2 vi v hvi]

/-- **C44 (finding).** If wakes change a range variable, a rule that applies to the values without wakes only still changes the target, for it was applied in the first pass, and is
not undone: a limit of 3000 for wind speeds from 9 to 11 m/s at turbine 1, whose wind speed is 10 m/s without and 8 m/s with the wake of turbine 0. -/
theorem C44_stale_rule :
    ∃ (others : List ((Bool → ℕ → ℝ) → Bool → ℕ → ℝ)) (fd : Bool → ℕ → ℝ),
      let rules := rulesOf [(true, none)] [(1, [((9 : ℝ), (11 : ℝ))], [(3000 : ℝ)])]
      let out := passes [(true, none)] [false] rules others fd
      out true 1 = 8 ∧ fd false 1 = 5000 ∧ out false 1 = 3000 ∧ calculate [(true, none)] [false] rules (fun v t => if v then out true t else fd false t) false 1 = 5000 := by
  refine ⟨[id, fun fd v t => if v = true ∧ t = 1 then 8 else fd v t], fun v _ => if v then 10 else 5000, ?_⟩
  have hm : ∀ (fd : Bool → ℕ → ℝ), matchesRule [(true, none)] fd ⟨1, List.zipWith loadRange [none] [(9, 11)], [3000]⟩ ↔ 9 ≤ fd true 1 ∧ fd true 1 < 11 := by
    intro fd; simp [matchesRule, loadRange, inRange]
  have hs : ∀ (sel : Rule → Prop) (R : List (ℝ × ℝ)) (a : ℕ → ℝ), (sel ⟨1, R, [3000]⟩ → setTarget sel [⟨1, R, [3000]⟩] 0 a 1 = 3000) ∧ (¬ sel ⟨1, R, [3000]⟩ → setTarget sel [⟨1, R, [3000]⟩] 0 a 1 = a 1) := by
    intro sel R a
    constructor <;> intro h <;> simp [setTarget, h]
  have hc : ∀ (fd : Bool → ℕ → ℝ), (calculate [(true, none)] [false] (rulesOf [(true, none)] [(1, [(9, 11)], [3000])]) fd true = fd true) ∧
      (9 ≤ fd true 1 → fd true 1 < 11 → calculate [(true, none)] [false] (rulesOf [(true, none)] [(1, [(9, 11)], [3000])]) fd false 1 = 3000) ∧
      (¬ (9 ≤ fd true 1 ∧ fd true 1 < 11) → calculate [(true, none)] [false] (rulesOf [(true, none)] [(1, [(9, 11)], [3000])]) fd false 1 = fd false 1) := by
    intro fd
    obtain ⟨h1, h2⟩ := calculate_spec [(true, none)] [false] (by simp) (rulesOf [(true, none)] [(1, [(9, 11)], [3000])]) fd
    refine ⟨h1 true (by simp), fun ha hb => ?_, fun hn => ?_⟩
    · rw [h2 0 false rfl]; exact (hs _ _ _).1 ((hm fd).2 ⟨ha, hb⟩)
    · rw [h2 0 false rfl]; exact (hs _ _ _).2 (fun h => hn ((hm fd).1 h))
  intro rules out
  have o1 : out true 1 = 8 := by
    show calculate _ _ _ _ true 1 = 8
    rw [(hc _).1]; simp
  have o2 : out false 1 = 3000 := by
    show calculate _ _ _ _ false 1 = 3000
    rw [(hc _).2.2 (by simp; norm_num)]
    simp only [Bool.false_eq_true, false_and, if_false]
    exact (hc _).2.1 (by simp; norm_num) (by simp; norm_num)
  refine ⟨o1, by simp, o2, ?_⟩
  rw [(hc _).2.2 (by simp only [if_true, o1]; norm_num)]
  simp

/-- **C44 (finding).** Rules also change turbines that do not have the model: the selection is not used. -/
theorem C44_selection_ignored : calculate (V := Unit) [] [()] (rulesOf (V := Unit) [] [(5, [], [1])]) (fun _ _ => 0) () 5 = 1 := by
  simp [calculate, rulesOf, setTarget, matchesRule]

/-! ### Examples -/

/-- wind directions from 350 to 10 degrees and wind speeds from 9 to 11 m/s -/
example : Applies [(true, some 360), (false, none)] (fun v _ => if v then 5 else 10) 0 [(350, 370), (9, 11)] := by
  intro j v p r h1 h2
  match j with
  | 0 =>
    simp at h1 h2; obtain ⟨rfl, rfl⟩ := h1; subst h2
    exact ⟨20, 0, by norm_num, by norm_num, by norm_num, 1, by norm_num, by norm_num⟩
  | 1 =>
    simp at h1 h2; obtain ⟨rfl, rfl⟩ := h1; subst h2
    constructor <;> norm_num
  | j + 2 => simp at h1

example : PosPeriods [(true, some 360), (false, none)] := by intro x hx p hp; simp at hx; rcases hx with rfl | rfl <;> simp at hp; subst hp; norm_num

/-- two turbines with the same name: the first one is taken -/
example : rowTurbine true ["A", "B", "B"] ⟨none, some "B", [], []⟩ = some 1 := by decide

end Foxes.Props.Sectors
