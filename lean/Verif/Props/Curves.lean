import Verif.Model.Curves
import Mathlib.Tactic
/-
Property C84: turbine curve plots and rotor point plots.
-/
namespace Foxes.Props.Curves
open Foxes.Curves

/-! ### Wind speeds -/

/-- **C84_grid.** For a positive step and min ≤ max: the wind speeds are min, min + step, ...; they end with the first that is at least max, and this is less than one step above. -/
theorem C84_grid (lo hi step : ℝ) (hs : 0 < step) (hl : lo ≤ hi) :
    ∃ n : ℕ, grid lo hi step = (List.range (n + 1)).map (fun i : ℕ => lo + i * step) ∧
      hi ≤ lo + n * step ∧ lo + n * step < hi + step ∧ ∀ i < n, lo + i * step < hi := by
  have hx : 0 ≤ (hi - lo) / step := div_nonneg (by linarith) hs.le
  have he : (hi + step - lo) / step = (hi - lo) / step + 1 := by field_simp; ring
  obtain ⟨n, hn⟩ := Int.eq_ofNat_of_zero_le (Int.ceil_nonneg hx)
  have h1 : (hi - lo) / step ≤ (n : ℝ) := by have := Int.le_ceil ((hi - lo) / step); rw [hn] at this; exact_mod_cast this
  have h2 : (n : ℝ) < (hi - lo) / step + 1 := by have := Int.ceil_lt_add_one ((hi - lo) / step); rw [hn] at this; exact_mod_cast this
  refine ⟨n, ?_, ?_, ?_, ?_⟩
  · unfold grid
    rw [he, Int.ceil_add_one, hn]
    rfl
  · rw [div_le_iff₀ hs] at h1; linarith
  · have h3 : (n : ℝ) - 1 < (hi - lo) / step := by linarith
    rw [lt_div_iff₀ hs] at h3; linarith
  · intro i hi'
    have h3 : (i : ℝ) + 1 ≤ n := by exact_mod_cast hi'
    have h4 : (i : ℝ) < (hi - lo) / step := by linarith
    rw [lt_div_iff₀ hs] at h4; linarith

/-- **C84_grid_max.** The maximal wind speed itself is among them exactly if it is a whole number of steps away from the minimal one. -/
theorem C84_grid_max (lo hi step : ℝ) (hs : 0 < step) (hl : lo ≤ hi) :
    hi ∈ grid lo hi step ↔ ∃ n : ℕ, hi = lo + n * step := by
  obtain ⟨n, h1, h2, h3, h4⟩ := C84_grid lo hi step hs hl
  rw [h1]
  constructor
  · intro h
    obtain ⟨i, -, hi'⟩ := List.mem_map.1 h
    exact ⟨i, hi'.symm⟩
  · rintro ⟨m, hm⟩
    refine List.mem_map.2 ⟨m, ?_, hm.symm⟩
    rw [List.mem_range]
    by_contra hc
    push Not at hc
    have : (n : ℝ) + 1 ≤ m := by exact_mod_cast hc
    have : ((n : ℝ) + 1) * step ≤ m * step := mul_le_mul_of_nonneg_right this hs.le
    nlinarith

/-- **C84_beyond** (finding). Otherwise there is a wind speed above the given maximum. -/
theorem C84_beyond (lo hi step : ℝ) (hs : 0 < step) (hl : lo ≤ hi) (h : ∀ n : ℕ, hi ≠ lo + n * step) : ∃ x ∈ grid lo hi step, hi < x := by
  obtain ⟨n, h1, h2, h3, h4⟩ := C84_grid lo hi step hs hl
  refine ⟨lo + n * step, ?_, lt_of_le_of_ne h2 (h n)⟩
  rw [h1]
  exact List.mem_map.2 ⟨n, by simp, rfl⟩

/-! ### The model book -/

variable {M : Type}

theorem lookup_put (b : List (String × M)) (n m : String) (x : M) : (put b n x).lookup m = if m = n then some x else b.lookup m := by
  induction b with
  | nil =>
    by_cases h : m = n
    · simp [put, h]
    · have : (m == n) = false := by simpa using h
      simp [put, List.lookup, this, h]
  | cons e b ih =>
    obtain ⟨k, y⟩ := e
    unfold put
    by_cases hk : k = n
    · rw [if_pos hk]; subst hk
      by_cases h : m = k
      · simp [h]
      · have : (m == k) = false := by simpa using h
        simp [List.lookup, this, h]
    · rw [if_neg hk]
      by_cases h : m = k
      · subst h; simp [hk]
      · have : (m == k) = false := by simpa using h
        simp only [List.lookup, this, ih]

theorem del_put_fresh (b : List (String × M)) (n : String) (x : M) (h : ∀ e ∈ b, e.1 ≠ n) : del (put b n x) n = b := by
  induction b with
  | nil => simp [put, del]
  | cons e b ih =>
    obtain ⟨k, y⟩ := e
    have hk : k ≠ n := h (k, y) (by simp)
    unfold put
    rw [if_neg hk]
    unfold del
    rw [List.filter_cons_of_pos (by simpa using hk)]
    congr 1
    exact ih fun e he => h e (List.mem_cons_of_mem _ he)

theorem lookup_del (b : List (String × M)) (n m : String) : (del b n).lookup m = if m = n then none else b.lookup m := by
  induction b with
  | nil => simp [del]
  | cons e b ih =>
    obtain ⟨k, y⟩ := e
    unfold del at *
    by_cases hk : k = n
    · rw [List.filter_cons_of_neg (by simpa using hk), ih]
      subst hk
      by_cases h : m = k
      · simp [h]
      · have : (m == k) = false := by simpa using h
        simp only [List.lookup, this]
    · rw [List.filter_cons_of_pos (by simpa using hk)]
      by_cases h : m = k
      · subst h; simp [hk]
      · have : (m == k) = false := by simpa using h
        simp only [List.lookup, this, ih]

/-- **C84_models.** The curves are those of a turbine with this type only; the second ones those of a turbine with this type, then the model that sets the maximal power, then the power mask of the book. -/
theorem C84_models (run : List M → List ℝ → Except Err Res) (setP : ℝ → M) (book : List (String × M)) (tt : String) (ws : List ℝ) (p : ℝ) (b : List (String × M)) (r : Res) (r1 : Option Res)
    (htt : tt ≠ sname) (h : calcs run setP book tt ws (some p) = (b, .ok (r, r1))) :
    ∃ mt mp q, book.lookup tt = some mt ∧ book.lookup "PMask" = some mp ∧ r1 = some q ∧ run [mt] ws = .ok r ∧ run [mt, setP p, mp] ws = .ok q := by
  unfold calcs farm at h
  have hP : ("PMask" : String) ≠ sname := by decide
  cases h1 : book.lookup tt with
  | none => simp [Foxes.Curves.get, h1, bind, Except.bind, pure, Except.pure] at h
  | some mt =>
    cases h2 : book.lookup "PMask" with
    | none =>
      cases h3 : run [mt] ws with
      | error e => simp [Foxes.Curves.get, h1, bind, Except.bind, pure, Except.pure, h3] at h
      | ok r' => simp [Foxes.Curves.get, h1, h2, bind, Except.bind, pure, Except.pure, h3, lookup_put, htt, hP] at h
    | some mp =>
      cases h3 : run [mt] ws with
      | error e => simp [Foxes.Curves.get, h1, bind, Except.bind, pure, Except.pure, h3] at h
      | ok r' =>
        cases h4 : run [mt, setP p, mp] ws with
        | error e => simp [Foxes.Curves.get, h1, h2, bind, Except.bind, pure, Except.pure, h3, h4, lookup_put, htt, hP] at h
        | ok q =>
          simp [Foxes.Curves.get, h1, h2, bind, Except.bind, pure, Except.pure, h3, h4, lookup_put, htt, hP] at h
          obtain ⟨-, rfl, rfl⟩ := h
          exact ⟨mt, mp, q, rfl, rfl, rfl, h3, h4⟩

/-- **C84_book.** Success, or no power mask asked for, leaves the model book as it was, unless it has an entry with the reserved name. -/
theorem C84_book (run : List M → List ℝ → Except Err Res) (setP : ℝ → M) (book : List (String × M)) (tt : String) (ws : List ℝ) (pmax : Option ℝ)
    (hf : ∀ e ∈ book, e.1 ≠ sname) (h : (∃ x, (calcs run setP book tt ws pmax).2 = .ok x) ∨ pmax = none) :
    (calcs run setP book tt ws pmax).1 = book := by
  unfold calcs at h ⊢
  cases h1 : farm run book [tt] ws with
  | error e => rfl
  | ok r =>
    cases pmax with
    | none => rfl
    | some p =>
      simp only [h1] at h ⊢
      cases h2 : farm run (put book sname (setP p)) [tt, sname, "PMask"] ws with
      | error e => simp [h2] at h
      | ok r1 => exact del_put_fresh _ _ _ hf

/-- **C84_left_behind** (finding). If the calculation with the power mask fails, the model that sets the maximal power stays in the book. -/
theorem C84_left_behind (run : List M → List ℝ → Except Err Res) (setP : ℝ → M) (book : List (String × M)) (tt : String) (ws : List ℝ) (p : ℝ) (r : Res)
    (h1 : farm run book [tt] ws = .ok r) (e : Err) (h2 : farm run (put book sname (setP p)) [tt, sname, "PMask"] ws = .error e) :
    (calcs run setP book tt ws (some p)).1.lookup sname = some (setP p) := by
  simp [calcs, h1, h2, lookup_put]

/-- **C84_user_lost** (finding). An entry of the book with the reserved name is lost. -/
theorem C84_user_lost (run : List M → List ℝ → Except Err Res) (setP : ℝ → M) (book : List (String × M)) (tt : String) (ws : List ℝ) (p : ℝ) (x : Res × Option Res)
    (h : (calcs run setP book tt ws (some p)).2 = .ok x) : (calcs run setP book tt ws (some p)).1.lookup sname = none := by
  unfold calcs at h ⊢
  cases h1 : farm run book [tt] ws with
  | error e => simp [h1] at h
  | ok r =>
    simp only [h1] at h ⊢
    cases h2 : farm run (put book sname (setP p)) [tt, sname, "PMask"] ws with
    | error e => simp [h2] at h
    | ok r1 => simp [lookup_del]

/-! ### The plots -/

variable {X : Type}

/-- **C84_plot1.** What one plot is, and when it can be made: exactly if there is an axis, a title and a label entry for it and the variable is among the results. -/
theorem C84_plot1 (tt : String) (ws : List ℝ) (r : Res) (r1 : Option Res) (axs : List (Option X)) (titles ylabs : List (Option String)) (xlab : Option String) (i : ℕ) (v : String) (p : Plot X) :
    plot1 tt ws r r1 axs titles ylabs xlab i v = .ok p ↔
      ∃ a t y yv, axs[i]? = some a ∧ titles[i]? = some t ∧ ylabs[i]? = some y ∧ r v = some yv ∧
        p.ax = (match a with | some x => .given x | none => .fresh i) ∧
        p.title = t.getD (dfltTitle v tt) ∧ p.xl = xlab.getD "Wind speed [m/s]" ∧ p.yl = y.getD (dfltLabel v) ∧ p.legend = r1.isSome ∧
        ((r1 = none ∧ p.lines = [("default", ws, yv)]) ∨ ∃ q yq, r1 = some q ∧ q v = some yq ∧ p.lines = [("default", ws, yv), ("PMask", ws, yq)]) := by
  unfold plot1 lines
  cases h1 : axs[i]? with
  | none => simp [orIndex]
  | some a =>
    cases h2 : r v with
    | none => simp [orIndex, orKey]
    | some yv =>
      cases r1 with
      | none =>
        cases h3 : titles[i]? with
        | none => simp [orIndex, orKey]
        | some t =>
          cases h4 : ylabs[i]? with
          | none => simp [orIndex, orKey]
          | some y =>
            simp only [orIndex, orKey, Except.ok.injEq, Option.some.injEq]
            constructor
            · rintro rfl; exact ⟨a, t, y, yv, rfl, rfl, rfl, rfl, rfl, rfl, rfl, rfl, rfl, Or.inl ⟨trivial, rfl⟩⟩
            · rintro ⟨_, _, _, _, rfl, rfl, rfl, rfl, e1, e2, e3, e4, e5, (⟨-, e6⟩ | ⟨_, _, h, _⟩)⟩
              · cases p; simp only at e1 e2 e3 e4 e5 e6; subst e1 e2 e3 e4 e5 e6; rfl
              · cases h
      | some q =>
        cases h5 : q v with
        | none => simp [orIndex, orKey, h5]
        | some yq =>
          cases h3 : titles[i]? with
          | none => simp [orIndex, orKey, h5]
          | some t =>
            cases h4 : ylabs[i]? with
            | none => simp [orIndex, orKey, h5]
            | some y =>
              simp only [orIndex, orKey, h5, Except.ok.injEq, Option.some.injEq]
              constructor
              · rintro rfl; exact ⟨a, t, y, yv, rfl, rfl, rfl, rfl, rfl, rfl, rfl, rfl, rfl, Or.inr ⟨q, yq, rfl, h5, rfl⟩⟩
              · rintro ⟨_, _, _, _, rfl, rfl, rfl, rfl, e1, e2, e3, e4, e5, (⟨h, -⟩ | ⟨_, _, rfl, h6, e6⟩)⟩
                · cases h
                · rw [h5] at h6; cases h6
                  cases p; simp only at e1 e2 e3 e4 e5 e6; subst e1 e2 e3 e4 e5 e6; rfl

/-- **C84_plots.** One plot per variable, in order: plot k is that of variable k with entry k of axes, titles and labels. -/
theorem C84_plots (tt : String) (ws : List ℝ) (r : Res) (r1 : Option Res) (axs : List (Option X)) (titles ylabs : List (Option String)) (xlab : Option String) (vars : List String) :
    ∀ (i : ℕ) (ps : List (Plot X)), plots tt ws r r1 axs titles ylabs xlab i vars = .ok ps ↔
      ps.length = vars.length ∧ ∀ (k : ℕ) v p, vars[k]? = some v → ps[k]? = some p → plot1 tt ws r r1 axs titles ylabs xlab (i + k) v = .ok p := by
  induction vars with
  | nil => intro i ps; cases ps <;> simp [plots]
  | cons v vs ih =>
    intro i ps
    constructor
    · intro h
      cases h1 : plot1 tt ws r r1 axs titles ylabs xlab i v with
      | error e => simp [plots, h1] at h
      | ok p =>
        cases h2 : plots tt ws r r1 axs titles ylabs xlab (i + 1) vs with
        | error e => simp [plots, h1, h2] at h
        | ok qs =>
          simp [plots, h1, h2] at h
          subst h
          obtain ⟨h3, h4⟩ := (ih (i + 1) qs).1 h2
          refine ⟨by simp [h3], ?_⟩
          intro k v' p' hv hp
          cases k with
          | zero => simp at hv hp; subst hv hp; exact h1
          | succ k =>
            rw [show i + (k + 1) = i + 1 + k by omega]
            exact h4 k v' p' (by simpa using hv) (by simpa using hp)
    · rintro ⟨hl, h⟩
      cases ps with
      | nil => simp at hl
      | cons p qs =>
        have h1 := h 0 v p rfl rfl
        rw [add_zero] at h1
        have h2 : plots tt ws r r1 axs titles ylabs xlab (i + 1) vs = .ok qs := by
          rw [ih]
          refine ⟨by simpa using hl, ?_⟩
          intro k v' p' hv hp
          rw [show i + 1 + k = i + (k + 1) by omega]
          exact h (k + 1) v' p' (by simpa using hv) (by simpa using hp)
        simp [plots, h1, h2]

/-- **C84_curves.** If the calculations succeed, the variables are among the results, and axes, titles and labels are either left out (axes: a list of the right length) or lists with one entry per variable, there is one plot per variable. -/
theorem C84_curves (run : List M → List ℝ → Except Err Res) (setP : ℝ → M) (book b : List (String × M)) (tt : String) (vars : List String) (pmax : Option ℝ)
    (titles ylabs : StrArg) (xlab : Option String) (lo hi step : ℝ) (axs : AxArg X) (r : Res) (r1 : Option Res) (hs : step ≠ 0)
    (hc : calcs run setP book tt (grid lo hi step) pmax = (b, .ok (r, r1)))
    (hv : ∀ v ∈ vars, (r v).isSome ∧ ∀ q, r1 = some q → (q v).isSome)
    (ht : vars.length ≤ (titles.toList vars.length).length) (hy : vars.length ≤ (ylabs.toList vars.length).length) (ha : vars.length ≤ axs.toList.length) :
    ∃ ps, plotCurves run setP book tt vars pmax titles ylabs xlab lo hi step axs = (b, .ok (ps, axs.toList)) ∧ ps.length = vars.length ∧
      ∀ (k : ℕ) v p, vars[k]? = some v → ps[k]? = some p →
        plot1 tt (grid lo hi step) r r1 axs.toList (titles.toList vars.length) (ylabs.toList vars.length) xlab k v = .ok p := by
  have key : ∀ (k : ℕ), ∀ v, vars[k]? = some v → ∃ p, plot1 tt (grid lo hi step) r r1 axs.toList (titles.toList vars.length) (ylabs.toList vars.length) xlab k v = .ok p := by
    intro k v hkv
    have hk : k < vars.length := by
      by_contra hn; rw [List.getElem?_eq_none (by omega)] at hkv; cases hkv
    obtain ⟨h1, h2⟩ := hv v (List.mem_of_getElem? hkv)
    obtain ⟨yv, hyv⟩ := Option.isSome_iff_exists.1 h1
    have ea := List.getElem?_eq_getElem (show k < axs.toList.length by omega)
    have et := List.getElem?_eq_getElem (show k < (titles.toList vars.length).length by omega)
    have ey := List.getElem?_eq_getElem (show k < (ylabs.toList vars.length).length by omega)
    cases r1 with
    | none => exact ⟨⟨_, _, _, _, _, _⟩, (C84_plot1 ..).2 ⟨_, _, _, yv, ea, et, ey, hyv, rfl, rfl, rfl, rfl, rfl, Or.inl ⟨rfl, rfl⟩⟩⟩
    | some q =>
      obtain ⟨yq, hyq⟩ := Option.isSome_iff_exists.1 (h2 q rfl)
      exact ⟨⟨_, _, _, _, _, _⟩, (C84_plot1 ..).2 ⟨_, _, _, yv, ea, et, ey, hyv, rfl, rfl, rfl, rfl, rfl, Or.inr ⟨q, yq, rfl, hyq, rfl⟩⟩⟩
  have : Nonempty (Plot X) := ⟨⟨.fresh 0, [], "", "", "", false⟩⟩
  choose! g hg using key
  have hps : plots tt (grid lo hi step) r r1 axs.toList (titles.toList vars.length) (ylabs.toList vars.length) xlab 0 vars = .ok (vars.mapIdx fun k v => g k v) := by
    rw [C84_plots]
    refine ⟨by simp, ?_⟩
    intro k v p hkv hp
    rw [zero_add, hg k v hkv]
    rw [List.getElem?_mapIdx, hkv] at hp
    simpa using hp
  refine ⟨vars.mapIdx fun k v => g k v, ?_, by simp, ?_⟩
  · unfold plotCurves
    rw [if_neg hs]
    simp only [hc, hps]
  · intro k v p hkv hp
    have := ((C84_plots _ _ _ _ _ _ _ _ _ _ _).1 hps).2 k v p hkv hp
    rwa [zero_add] at this

/-- **C84_one_axis** (finding). For more than one variable the axes cannot be left out: the call fails, after all calculations. -/
theorem C84_one_axis (run : List M → List ℝ → Except Err Res) (setP : ℝ → M) (book : List (String × M)) (tt : String) (vars : List String) (hn : 2 ≤ vars.length) (pmax : Option ℝ)
    (titles ylabs : StrArg) (xlab : Option String) (lo hi step : ℝ) (x : Option X) :
    ∃ e, (plotCurves run setP book tt vars pmax titles ylabs xlab lo hi step (.one x)).2 = .error e := by
  unfold plotCurves
  by_cases hs : step = 0
  · rw [if_pos hs]; exact ⟨_, rfl⟩
  rw [if_neg hs]
  simp only
  rcases hc : calcs run setP book tt (grid lo hi step) pmax with ⟨b, (e | ⟨r, r1⟩)⟩
  · exact ⟨e, rfl⟩
  · simp only
    cases hp : plots tt (grid lo hi step) r r1 (AxArg.one x).toList (titles.toList vars.length) (ylabs.toList vars.length) xlab 0 vars with
    | error e => exact ⟨e, rfl⟩
    | ok ps =>
      exfalso
      obtain ⟨h1, h2⟩ := (C84_plots ..).1 hp
      have hv := List.getElem?_eq_getElem (show 1 < vars.length by omega)
      have hq := List.getElem?_eq_getElem (show 1 < ps.length by omega)
      have := h2 1 _ _ hv hq
      obtain ⟨a, t, y, yv, ha, -⟩ := (C84_plot1 ..).1 this
      simp [AxArg.toList] at ha

/-- **C84_returned** (finding). The axis that was created is not returned: without axes the returned list is [None]. -/
theorem C84_returned (run : List M → List ℝ → Except Err Res) (setP : ℝ → M) (book b : List (String × M)) (tt : String) (vars : List String) (pmax : Option ℝ)
    (titles ylabs : StrArg) (xlab : Option String) (lo hi step : ℝ) (ps : List (Plot X)) (ret : List (Option X))
    (h : plotCurves run setP book tt vars pmax titles ylabs xlab lo hi step (.one none) = (b, .ok (ps, ret))) : ret = [none] := by
  unfold plotCurves at h
  by_cases hs : step = 0
  · rw [if_pos hs] at h; simp at h
  rw [if_neg hs] at h
  simp only at h
  rcases hc : calcs run setP book tt (grid lo hi step) pmax with ⟨b, (e | ⟨r, r1⟩)⟩
  · simp [hc] at h
  · simp only [hc] at h
    cases hp : plots tt (grid lo hi step) r r1 (AxArg.one (none : Option X)).toList (titles.toList vars.length) (ylabs.toList vars.length) xlab 0 vars with
    | error e => simp [hp] at h
    | ok ps => simp [hp] at h; exact h.2.2.symm

/-- default title and label -/
example : dfltTitle "P" "NREL5MW" = "Power curve, NREL5MW" ∧ dfltTitle "CT" "NREL5MW" = "Thrust curve, NREL5MW" ∧ dfltTitle "REWS" "A" = "REWS, A" := by decide +kernel

/-- the hypotheses of C84_curves can be met -/
example : ∃ ps, plotCurves (M := ℕ) (X := ℕ) (fun _ ws => .ok fun v => if v = "P" ∨ v = "CT" then some ws else none) (fun _ => 5) [("T", 1), ("PMask", 2)] "T" ["P", "CT"] (some 3)
    .none .none none 0 30 (1/2) (.many [none, some 4]) = ([("T", 1), ("PMask", 2)], .ok (ps, [none, some 4])) ∧ ps.length = 2 := by
  obtain ⟨ps, h1, h2, -⟩ := C84_curves (M := ℕ) (X := ℕ) (fun _ ws => .ok fun v => if v = "P" ∨ v = "CT" then some ws else none) (fun _ => 5) [("T", 1), ("PMask", 2)] [("T", 1), ("PMask", 2)]
    "T" ["P", "CT"] (some 3) .none .none none 0 30 (1/2) (.many [none, some 4]) _ _ (by norm_num) rfl (by simp) (by simp [StrArg.toList]) (by simp [StrArg.toList]) (by simp [AxArg.toList])
  exact ⟨ps, h1, h2⟩

/-! ### Rotor points -/

/-- independent specification: is weight i more than five percent of the whole range below the next one -/
def Far (w : List ℝ) (i : ℕ) : Prop := 5 / 100 * (w.getLastD 0 - w.getD 0 0) < w.getD (i + 1) 0 - w.getD i 0

theorem getD_get (w : List ℝ) (i : ℕ) (h : i < w.length) : w.getD i 0 = w[i] := by simp [h]

theorem getD_lt (w : List ℝ) (hw : w.Pairwise (· < ·)) (i j : ℕ) (hij : i < j) (hj : j < w.length) : w.getD i 0 < w.getD j 0 := by
  rw [getD_get _ _ (by omega), getD_get _ _ hj]
  exact List.pairwise_iff_getElem.1 hw i j (by omega) hj hij

theorem getLastD_eq (w : List ℝ) (h : w ≠ []) : w.getLastD 0 = w.getD (w.length - 1) 0 := by
  have : 0 < w.length := List.length_pos_of_ne_nil h
  rw [getD_get _ _ (by omega), ← List.getLast_eq_getElem h]
  cases w with
  | nil => exact absurd rfl h
  | cons a l => simp [List.getLastD]

/-- the length of the range is positive from two weights on -/
theorem span_pos (w : List ℝ) (hw : w.Pairwise (· < ·)) (h : 2 ≤ w.length) : 0 < w.getLastD 0 - w.getD 0 0 := by
  rw [getLastD_eq w (by rintro rfl; simp at h)]
  have := getD_lt w hw 0 (w.length - 1) (by omega) (by omega)
  linarith

open scoped Classical in
theorem step_eq (w : List ℝ) (hw : w.Pairwise (· < ·)) (h : 2 ≤ w.length) (t : List (Option ℝ)) (i : ℕ) :
    labelStep w t i = if Far w i then some (w.getD i 0) :: t else if i = 0 then some (w.getD 0 0) :: none :: t.drop 1 else none :: t := by
  have hp := span_pos w hw h
  unfold labelStep Far
  by_cases hc : 5 / 100 * (w.getLastD 0 - w.getD 0 0) < w.getD (i + 1) 0 - w.getD i 0
  · rw [if_pos hc, if_pos ((lt_div_iff₀ hp).2 hc)]
  · rw [if_neg hc, if_neg (fun h => hc ((lt_div_iff₀ hp).1 h))]

open scoped Classical in
theorem fold_eq (w : List ℝ) (hw : w.Pairwise (· < ·)) (h : 2 ≤ w.length) (T : List (Option ℝ)) (k : ℕ) : ∀ j, 1 ≤ j →
    (List.range' j k).foldr (fun i t => labelStep w t i) T = (List.range' j k).map (fun i => if Far w i then some (w.getD i 0) else none) ++ T := by
  induction k with
  | zero => intro j _; simp
  | succ k ih =>
    intro j hj
    rw [List.range'_succ, List.foldr_cons, ih (j + 1) (by omega), step_eq w hw h]
    rw [if_neg (show j ≠ 0 by omega)]
    by_cases hf : Far w j
    · simp [hf]
    · simp [hf]

open scoped Classical in
/-- **C84_labels.** For sorted different weights there is one tick label per weight: the smallest and the largest weight are always labelled; any other weight is labelled exactly if it is more than five percent of the range below the next one, and, for the second one, if it is also so far above the first. -/
theorem C84_labels (w : List ℝ) (hw : w.Pairwise (· < ·)) (h0 : w ≠ []) :
    ∃ ls, labels w = .ok ls ∧ ls.length = w.length ∧
      ∀ i < w.length, ls[i]? = some (if i = 0 ∨ i = w.length - 1 ∨ (Far w i ∧ (i = 1 → Far w 0)) then some (w.getD i 0) else none) := by
  have hlast : w.getLast? = some (w.getD (w.length - 1) 0) := by
    have : 0 < w.length := List.length_pos_of_ne_nil h0
    rw [List.getLast?_eq_getElem?, getD_get _ _ (by omega), List.getElem?_eq_getElem (by omega)]
  unfold labels
  rw [hlast]
  refine ⟨_, rfl, ?_⟩
  rw [List.foldl_reverse, List.range_eq_range']
  by_cases h2 : 2 ≤ w.length
  · obtain ⟨m, hm⟩ : ∃ m, w.length = m + 2 := ⟨w.length - 2, by omega⟩
    have hm1 : w.length - 1 = m + 1 := by omega
    rw [hm1, List.range'_succ, List.foldr_cons, fold_eq w hw h2 _ _ _ (le_refl 1), step_eq w hw h2, if_pos rfl]
    have inner : ∀ i, 1 ≤ i → i < m + 2 → ((List.range' 1 m).map (fun i => if Far w i then some (w.getD i 0) else none) ++ [some (w.getD (m + 1) 0)])[i - 1]? =
        some (if i = m + 1 ∨ Far w i then some (w.getD i 0) else none) := by
      intro i hi hi2
      by_cases hl : i = m + 1
      · subst hl
        rw [List.getElem?_append_right (by simp)]
        simp
      · rw [List.getElem?_append_left (by simp; omega), List.getElem?_map, List.getElem?_range' (by omega)]
        simp only [Option.map_some, hl, false_or]
        congr 2 <;> first | (congr 1; omega) | skip
        all_goals rw [show 1 + 1 * (i - 1) = i by omega]
    by_cases hf : Far w 0
    · rw [if_pos hf]
      refine ⟨by simp; omega, ?_⟩
      intro i hi
      cases i with
      | zero => simp
      | succ i =>
        rw [List.getElem?_cons_succ]
        have := inner (i + 1) (by omega) (by omega)
        rw [Nat.add_sub_cancel] at this
        rw [this]
        congr 1
        simp [hf]
    · rw [if_neg hf]
      have hm0 : 0 < m := by
        by_contra hm0
        have : m = 0 := by omega
        subst this
        apply hf
        unfold Far
        have hp := span_pos w hw h2
        rw [getLastD_eq w h0, hm] at hp ⊢
        norm_num at hp ⊢
        linarith
      refine ⟨by simp; omega, ?_⟩
      intro i hi
      match i with
      | 0 => simp
      | 1 =>
        have : ¬(1 = m + 1) := by omega
        simp [hf, hm0.ne']
      | i + 2 =>
        have := inner (i + 2) (by omega) (by omega)
        rw [List.getElem?_cons_succ, List.getElem?_cons_succ, List.getElem?_drop, show 1 + i = i + 2 - 1 by omega, this]
        congr 1
        simp
  · have hl : w.length = 1 := by have := List.length_pos_of_ne_nil h0; omega
    rw [hl]
    refine ⟨by simp, ?_⟩
    intro i hi
    have : i = 0 := by omega
    subst this
    simp

/-- **C84_apart.** Any two labels, the one of the smallest weight left aside, are more than five percent of the range apart. -/
theorem C84_apart (w : List ℝ) (hw : w.Pairwise (· < ·)) (ls : List (Option ℝ)) (h : labels w = .ok ls) (i j : ℕ) (hi : 0 < i) (hij : i < j) (a b : ℝ)
    (ha : ls[i]? = some (some a)) (hb : ls[j]? = some (some b)) : 5 / 100 * (w.getLastD 0 - w.getD 0 0) < b - a := by
  classical
  have h0 : w ≠ [] := by rintro rfl; simp [labels] at h
  obtain ⟨ls', h1, h2, h3⟩ := C84_labels w hw h0
  rw [h] at h1
  obtain rfl := Except.ok.inj h1
  have hj : j < w.length := by
    by_contra hc; rw [List.getElem?_eq_none (by omega)] at hb; cases hb
  rw [h3 i (by omega)] at ha
  rw [h3 j hj] at hb
  by_cases hc : i = 0 ∨ i = w.length - 1 ∨ (Far w i ∧ (i = 1 → Far w 0))
  · rw [if_pos hc] at ha
    by_cases hd : j = 0 ∨ j = w.length - 1 ∨ (Far w j ∧ (j = 1 → Far w 0))
    · rw [if_pos hd] at hb
      simp only [Option.some.injEq] at ha hb
      subst ha hb
      have hf : Far w i := by
        rcases hc with hc | hc | hc
        · omega
        · omega
        · exact hc.1
      unfold Far at hf
      rcases Nat.lt_or_ge (i + 1) j with hlt | hge
      · have := getD_lt w hw (i + 1) j hlt hj
        linarith
      · have : j = i + 1 := by omega
        subst this; exact hf
    · rw [if_neg hd] at hb; simp at hb
  · rw [if_neg hc] at ha; simp at ha

/-- **C84_close** (finding). The label of the smallest weight can be closer than that to the next label: two percent for these weights. -/
theorem C84_close : labels [0, 1, 2, 50, 100] = .ok [some 0, none, some 2, some 50, some 100] := by
  simp [labels, List.range_succ, labelStep]
  norm_num

/-- the different weights, sorted -/
theorem unique_sorted (w : List ℝ) : (unique w).Pairwise (· < ·) ∧ ∀ x, x ∈ unique w ↔ x ∈ w := by
  constructor
  · have h1 : (unique w).Pairwise (fun a b => decide (a ≤ b) = true) := by
      apply List.pairwise_mergeSort
      · intro a b c; simp; exact le_trans
      · intro a b; simp; exact le_total a b
    have h2 : (unique w).Nodup := (List.mergeSort_perm _ _).nodup_iff.2 (List.nodup_dedup w)
    have := h1.and h2
    refine this.imp ?_
    rintro a b ⟨h3, h4⟩
    simp at h3
    exact lt_of_le_of_ne h3 h4
  · intro x
    unfold unique
    rw [List.mem_mergeSort, List.mem_dedup]

/-- **C84_points.** With as many weights as points, at least one, and a place to draw to: every rotor point is drawn at its second and third coordinate with its weight in percent; the ticks are exactly the different weights in percent, increasing, one label each. -/
theorem C84_points {G X : Type} (axes : G → List X) (fig : Option G) (ax : Option X) (name : String) (title : Option String) (points : List (ℝ × ℝ × ℝ)) (weights : List ℝ)
    (hl : points.length = weights.length) (h0 : weights ≠ []) (hw : ∀ g, fig = some g → ax = none → axes g ≠ []) :
    ∃ r, pointFigure axes fig ax name title points weights = .ok r ∧ r.dots.length = points.length ∧
      (∀ (k : ℕ) p w, points[k]? = some p → weights[k]? = some w → r.dots[k]? = some ((p.2.1, p.2.2), w * 100)) ∧
      r.ticks.Pairwise (· < ·) ∧ (∀ x, x ∈ r.ticks ↔ ∃ w ∈ weights, x = w * 100) ∧ labels r.ticks = .ok r.labels ∧ r.labels.length = r.ticks.length := by
  have hpl : ∃ pl, whereTo axes fig ax = .ok pl := by
    unfold whereTo
    cases fig with
    | none => exact ⟨_, rfl⟩
    | some g =>
      cases ax with
      | some x => exact ⟨_, rfl⟩
      | none =>
        have := hw g rfl rfl
        cases ha : axes g with
        | nil => exact absurd ha this
        | cons x l => exact ⟨some (g, x), by simp [ha]⟩
  obtain ⟨pl, hpl⟩ := hpl
  obtain ⟨hs, hm⟩ := unique_sorted (weights.map (· * 100))
  have hne : unique (weights.map (· * 100)) ≠ [] := by
    obtain ⟨x, hx⟩ := List.exists_mem_of_ne_nil _ h0
    have := (hm (x * 100)).2 (List.mem_map_of_mem hx)
    exact List.ne_nil_of_mem this
  obtain ⟨ls, hls, hll, -⟩ := C84_labels _ hs hne
  unfold pointFigure
  simp only [hpl, hls]
  refine ⟨_, rfl, by simp [hl], ?_, hs, ?_, hls, hll⟩
  · intro k p w hp hw
    rw [List.getElem?_zip_eq_some]
    simp [List.getElem?_map, hp, hw]
  · intro x
    rw [hm]; simp [eq_comm]

/-- **C84_axis_ignored** (finding). The axis of the caller is not used unless its figure is given as well. -/
theorem C84_axis_ignored {G X : Type} (axes : G → List X) (ax : Option X) (name : String) (title : Option String) (points : List (ℝ × ℝ × ℝ)) (weights : List ℝ) :
    pointFigure axes none ax name title points weights = pointFigure axes none none name title points weights := rfl

/-- **C84_place.** With a figure it is drawn in this figure, in the axis of the caller or in the first one of the figure. -/
theorem C84_place {G X : Type} (axes : G → List X) (g : G) (ax : Option X) (name : String) (title : Option String) (points : List (ℝ × ℝ × ℝ)) (weights : List ℝ) (r : RotorFig G X)
    (h : pointFigure axes (some g) ax name title points weights = .ok r) :
    ∃ x, r.place = some (g, x) ∧ (∀ a, ax = some a → x = a) ∧ (ax = none → (axes g).head? = some x) := by
  unfold pointFigure at h
  cases hp : whereTo axes (some g) ax with
  | error e => simp [hp] at h
  | ok pl =>
    simp only [hp] at h
    cases hl : labels (unique (weights.map (· * 100))) with
    | error e => simp [hl] at h
    | ok ls =>
      simp only [hl, Except.ok.injEq] at h
      subst h
      unfold whereTo at hp
      cases ax with
      | some a => simp at hp; exact ⟨a, hp.symm, by simp, by simp⟩
      | none =>
        cases ha : (axes g).head? with
        | none => simp [ha] at hp
        | some x => simp [ha] at hp; exact ⟨x, hp.symm, by simp, by simp⟩

/-- **C84_title.** The title is the given one or the description of the rotor model; the empty one means none. -/
theorem C84_title {G X : Type} (axes : G → List X) (fig : Option G) (ax : Option X) (name : String) (title : Option String) (points : List (ℝ × ℝ × ℝ)) (weights : List ℝ) (r : RotorFig G X)
    (h : pointFigure axes fig ax name title points weights = .ok r) (t : String) :
    r.title = some t ↔ t ≠ "" ∧ (title = some t ∨ (title = none ∧ name = t)) := by
  unfold pointFigure at h
  cases hp : whereTo axes fig ax with
  | error e => simp [hp] at h
  | ok pl =>
    simp only [hp] at h
    cases hl : labels (unique (weights.map (· * 100))) with
    | error e => simp [hl] at h
    | ok ls =>
      simp only [hl, Except.ok.injEq] at h
      subst h
      cases title with
      | none =>
        by_cases hn : name = ""
        · simp [hn]; try (rintro h rfl; exact h rfl)
        · simp [hn]; try (rintro rfl; exact hn)
      | some s =>
        by_cases hn : s = ""
        · simp [hn]; try (rintro h rfl; exact h rfl)
        · simp [hn]; try (rintro rfl; exact hn)

/-- **C84_defaults.** Default titles and labels. -/
theorem C84_defaults (v tt : String) (hP : v ≠ "P") (hC : v ≠ "CT") :
    dfltTitle "P" tt = "Power curve, " ++ tt ∧ dfltTitle "CT" tt = "Thrust curve, " ++ tt ∧ dfltTitle v tt = v ++ ", " ++ tt ∧
    dfltLabel "P" = "Power [kW]" ∧ dfltLabel "CT" = "ct [-]" ∧ dfltLabel v = v := by
  simp [dfltTitle, dfltLabel, hP, hC]

/-- **C84_simple.** With nothing but a list of n axis entries given: one plot per variable, with the default title and labels. -/
theorem C84_simple (run : List M → List ℝ → Except Err Res) (setP : ℝ → M) (book b : List (String × M)) (tt : String) (vars : List String) (pmax : Option ℝ)
    (lo hi step : ℝ) (axs : AxArg X) (r : Res) (r1 : Option Res) (hs : step ≠ 0)
    (hc : calcs run setP book tt (grid lo hi step) pmax = (b, .ok (r, r1)))
    (hv : ∀ v ∈ vars, (r v).isSome ∧ ∀ q, r1 = some q → (q v).isSome) (ha : vars.length ≤ axs.toList.length) :
    ∃ ps, plotCurves run setP book tt vars pmax .none .none none lo hi step axs = (b, .ok (ps, axs.toList)) ∧ ps.length = vars.length ∧
      ∀ (k : ℕ) v p, vars[k]? = some v → ps[k]? = some p → p.title = dfltTitle v tt ∧ p.yl = dfltLabel v ∧ p.xl = "Wind speed [m/s]" := by
  obtain ⟨ps, h1, h2, h3⟩ := C84_curves run setP book b tt vars pmax .none .none none lo hi step axs r r1 hs hc hv (by simp [StrArg.toList]) (by simp [StrArg.toList]) ha
  refine ⟨ps, h1, h2, ?_⟩
  intro k v p hkv hp
  obtain ⟨a, t, y, yv, -, ht, hy, -, -, e1, e2, e3, -⟩ := (C84_plot1 ..).1 (h3 k v p hkv hp)
  have : t = none := by
    have := List.mem_of_getElem? ht
    simp only [StrArg.toList] at this
    exact List.eq_of_mem_replicate this
  have hy' : y = none := by
    have := List.mem_of_getElem? hy
    simp only [StrArg.toList] at this
    exact List.eq_of_mem_replicate this
  subst this hy'
  exact ⟨e1, e3, e2⟩

end Foxes.Props.Curves
