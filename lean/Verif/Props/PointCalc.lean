import Verif.Model.PointCalc
import Verif.Model.Downwind
import Verif.Props.Downwind
import Mathlib.Tactic.Ring
import Mathlib.Tactic.NormNum
import Mathlib.Algebra.Order.Ring.Rat
import Mathlib.Algebra.Field.Rat
import Mathlib.Data.List.Perm.Basic
import Mathlib.Algebra.BigOperators.Group.List.Basic
/-
C53: point results. Specification: `waked x ws` are the values at a point after the wake models `ws` act on the values `x` one after the other, each on all turbines: a wake model adds its final delta to
each of its variables. For wake models whose final deltas do not look at the ambient values, this is the sum over the models.
-/
namespace Foxes.Props.PointCalc
open Foxes.PointCalc

set_option linter.unusedSectionVars false
variable {V K S P A : Type} [DecidableEq V] [Field K]

/-- all turbines' contributions at a point -/
def allWakes (w : Wake V K S P A) (fd : List S) (p : P) : A := fd.foldl (fun d s => w.add s p d) w.zero

/-- the wake models act one after the other -/
def waked (fd : List S) (p : P) : List (Wake V K S P A) → (V → K) → (V → K)
  | [], x => x
  | w :: ws, x => waked fd p ws (fun v => if v ∈ w.keys then x v + w.fin (fun u => some (x u)) (allWakes w fd p) v else x v)

/-- final deltas of a wake model depend on the ambient values of its own variables only -/
def Reads (w : Wake V K S P A) : Prop := ∀ a b d v, (∀ u ∈ w.keys, a u = b u) → w.fin a d v = w.fin b d v

/-- final deltas do not depend on ambient values at all -/
def AmbFree (w : Wake V K S P A) : Prop := ∀ a b d v, w.fin a d v = w.fin b d v

lemma passes_ok (pvars : List V) (fd : List S) (p : P) (td : Vals V K) (x0 : V → K) (htd : ∀ v ∈ pvars, td v = some (x0 v)) (ws : List (Wake V K S P A))
    (hk : ∀ w ∈ ws, ∀ v ∈ w.keys, v ∈ pvars) (hr : ∀ w ∈ ws, Reads w) (res : Vals V K) (x : V → K)
    (h1 : ∀ v, (res v = some (x v) ∧ v ∈ pvars) ∨ (res v = none ∧ x v = x0 v)) :
    ∃ r, wakePasses pvars fd none p td ws res = .ok r ∧ ∀ v, (r v = some (waked fd p ws x v) ∧ v ∈ pvars) ∨ (r v = none ∧ waked fd p ws x v = x0 v) := by
  induction ws generalizing res x with
  | nil => exact ⟨res, rfl, h1⟩
  | cons w ws ih =>
    have ih := ih (fun w' hw' => hk w' (List.mem_cons_of_mem _ hw')) (fun w' hw' => hr w' (List.mem_cons_of_mem _ hw'))
    unfold wakePasses wakePass
    by_cases hany : pvars.any (fun v => w.keys.contains v) = true
    · rw [if_pos hany]
      have hres1 : ∀ v ∈ pvars, known pvars td res v = some (x v) := by
        intro v hv
        unfold known
        rcases h1 v with ⟨h, _⟩ | ⟨h, h'⟩
        · rw [h]
        · rw [h]
          simp [hv, htd v hv, h']
      have hall : w.keys.all (fun v => (known pvars td res v).isSome) = true := by
        rw [List.all_eq_true]
        intro v hv
        rw [hres1 v (hk w (List.mem_cons_self ..) v hv)]
        rfl
      simp only
      rw [if_pos hall]
      simp only
      apply ih
      intro v
      have hfin : ∀ v, w.fin (known pvars td res) (deltas w fd none p) v =
          w.fin (fun u => some (x u)) (allWakes w fd p) v := by
        intro v
        apply hr w (List.mem_cons_self ..)
        intro u hu
        exact hres1 u (hk w (List.mem_cons_self ..) u hu)
      by_cases hv : v ∈ w.keys
      · left
        have hvp := hk w (List.mem_cons_self ..) v hv
        refine ⟨?_, hvp⟩
        have hc : w.keys.contains v = true := by simpa using hv
        rw [if_pos hc, if_pos hv, hres1 v hvp, hfin]
        rfl
      · have hc : ¬ w.keys.contains v = true := by simpa using hv
        rw [if_neg hc, if_neg hv]
        by_cases hvp : v ∈ pvars
        · exact Or.inl ⟨hres1 v hvp, hvp⟩
        · right
          rcases h1 v with ⟨_, h⟩ | ⟨h, h'⟩
          · exact absurd h hvp
          · unfold known
            rw [h]
            simp [hvp, h']
    · rw [if_neg hany]
      simp only
      apply ih
      intro v
      by_cases hv : v ∈ w.keys
      · have hvp := hk w (List.mem_cons_self ..) v hv
        exact absurd (List.any_eq_true.2 ⟨v, hvp, by simpa using hv⟩) hany
      · rw [if_neg hv]
        exact h1 v

/-- C53 (wakes at points): the result of each variable of the states is its value without wakes, changed by the wake models one after the other, each with the wakes of all turbines; other data are
untouched. -/
theorem C53_point_wakes (pvars : List V) (fd : List S) (p : P) (td : Vals V K) (x : V → K) (htd : ∀ v ∈ pvars, td v = some (x v)) (ws : List (Wake V K S P A))
    (hk : ∀ w ∈ ws, ∀ v ∈ w.keys, v ∈ pvars) (hr : ∀ w ∈ ws, Reads w) :
    ∃ r, pointWakes pvars ws [] fd none p td = .ok r ∧ (∀ v ∈ pvars, r v = some (waked fd p ws x v)) ∧ ∀ v, v ∉ pvars → r v = td v := by
  obtain ⟨r, h1, h2⟩ := passes_ok pvars fd p td x htd ws hk hr (fun _ => none) x (fun v => Or.inr ⟨rfl, rfl⟩)
  refine ⟨update td r, by simp [pointWakes, h1, runModels], ?_, ?_⟩
  · intro v hv
    unfold update
    rcases h2 v with ⟨h, _⟩ | ⟨h, h'⟩
    · rw [h]
    · rw [h, h', htd v hv]
  · intro v hv
    unfold update
    rcases h2 v with ⟨_, h⟩ | ⟨h, _⟩
    · exact absurd h hv
    · rw [h]

/-- sum of the final deltas of the models -/
def total (fd : List S) (p : P) (ws : List (Wake V K S P A)) (v : V) : K :=
  (ws.map (fun w => if v ∈ w.keys then w.fin (fun _ => none) (allWakes w fd p) v else 0)).sum

lemma waked_sum (fd : List S) (p : P) (ws : List (Wake V K S P A)) (hf : ∀ w ∈ ws, AmbFree w) (x : V → K) (v : V) : waked fd p ws x v = x v + total fd p ws v := by
  induction ws generalizing x with
  | nil => simp [waked, total]
  | cons w ws ih =>
    unfold waked
    rw [ih (fun w' hw' => hf w' (List.mem_cons_of_mem _ hw'))]
    unfold total
    rw [List.map_cons, List.sum_cons]
    by_cases hv : v ∈ w.keys
    · rw [if_pos hv, if_pos hv, hf w (List.mem_cons_self ..) _ (fun _ => none)]
      ring
    · rw [if_neg hv, if_neg hv]
      ring

/-- C53 (several wake models): if final deltas do not look at the ambient values, the wakes of all models are added, in any order of the models. -/
theorem C53_models_add_up (pvars : List V) (fd : List S) (p : P) (td : Vals V K) (x : V → K) (htd : ∀ v ∈ pvars, td v = some (x v)) (ws ws' : List (Wake V K S P A)) (hp : ws.Perm ws')
    (hk : ∀ w ∈ ws, ∀ v ∈ w.keys, v ∈ pvars) (hf : ∀ w ∈ ws, AmbFree w) :
    ∃ r r', pointWakes pvars ws [] fd none p td = .ok r ∧ pointWakes pvars ws' [] fd none p td = .ok r' ∧
      ∀ v ∈ pvars, r v = some (x v + (ws.map (fun w => if v ∈ w.keys then w.fin (fun _ => none) (allWakes w fd p) v else 0)).sum) ∧ r' v = r v := by
  obtain ⟨r, h1, h2, _⟩ := C53_point_wakes pvars fd p td x htd ws hk (fun w hw a b d v _ => hf w hw a b d v)
  have hf' : ∀ w ∈ ws', AmbFree w := fun w hw => hf w (hp.mem_iff.2 hw)
  obtain ⟨r', h1', h2', _⟩ := C53_point_wakes pvars fd p td x htd ws' (fun w hw => hk w (hp.mem_iff.2 hw)) (fun w hw a b d v _ => hf' w hw a b d v)
  refine ⟨r, r', h1, h1', ?_⟩
  intro v hv
  rw [h2 v hv, h2' v hv, waked_sum fd p ws hf, waked_sum fd p ws' hf']
  refine ⟨rfl, ?_⟩
  unfold total
  rw [(hp.map _).sum_eq]

/-- C53 (outside of wakes): if no turbine contributes at the point, and without contributions there is no final delta, the results are the ambient ones. -/
theorem C53_outside_wakes (pvars : List V) (fd : List S) (p : P) (td : Vals V K) (x : V → K) (htd : ∀ v ∈ pvars, td v = some (x v)) (ws : List (Wake V K S P A))
    (hk : ∀ w ∈ ws, ∀ v ∈ w.keys, v ∈ pvars) (hr : ∀ w ∈ ws, Reads w) (hno : ∀ w ∈ ws, ∀ s ∈ fd, w.add s p w.zero = w.zero) (hz : ∀ w ∈ ws, ∀ a v, w.fin a w.zero v = 0) :
    ∃ r, pointWakes pvars ws [] fd none p td = .ok r ∧ ∀ v, r v = td v := by
  obtain ⟨r, h1, h2, h3⟩ := C53_point_wakes pvars fd p td x htd ws hk hr
  refine ⟨r, h1, ?_⟩
  intro v
  by_cases hv : v ∈ pvars
  · rw [h2 v hv, htd v hv]
    clear h1 h2 h3 hk hr
    congr 1
    clear htd hv
    induction ws generalizing x with
    | nil => rfl
    | cons w ws ih =>
      have hw : allWakes w fd p = w.zero := by
        have hn := hno w (List.mem_cons_self ..)
        unfold allWakes
        clear hno ih hz
        induction fd with
        | nil => rfl
        | cons s fd ih2 =>
          rw [List.foldl_cons, hn s (List.mem_cons_self ..)]
          exact ih2 (fun s' hs' => hn s' (List.mem_cons_of_mem _ hs'))
      unfold waked
      rw [ih _ (fun w' hw' => hno w' (List.mem_cons_of_mem _ hw')) (fun w' hw' => hz w' (List.mem_cons_of_mem _ hw')), hw, hz w (List.mem_cons_self ..)]
      split <;> simp
  · exact h3 v hv

/-- C53 (one turbine's wake): with `downwind_index`, only that turbine acts. -/
theorem C53_only_one_turbine (w : Wake V K S P A) (fd : List S) (i : ℕ) (s : S) (hs : fd[i]? = some s) (p : P) : deltas w fd (some i) p = allWakes w [s] p := by
  simp [deltas, allWakes, hs]

/-! ### Ambient results -/

lemma foldl_amb (amb : V → Option V) (inj : ∀ u v x, amb u = some x → amb v = some x → u = v) (td : Vals V K) (l : List V) (t0 : Vals V K) (x : V) :
    (l.foldl (fun t v => fun x => if amb v = some x then td v else t x) t0) x = match l.find? (fun v => decide (amb v = some x)) with | some v => td v | none => t0 x := by
  induction l generalizing t0 with
  | nil => rfl
  | cons v l ih =>
    rw [List.foldl_cons, ih, List.find?_cons]
    by_cases h : amb v = some x
    · simp only [h, decide_true]
      cases hf : l.find? (fun v => decide (amb v = some x)) with
      | none => simp
      | some u =>
        have := List.find?_some hf
        simp only [decide_eq_true_eq] at this
        simp [inj u v x this h]
    · simp [h]

/-- C53 (ambient results): the ambient value of each variable of the states is its value without wakes, in ambient and in waked calculations, for any wake models. Ambient names belong to one variable, and
are not themselves variables of the states. -/
theorem C53_ambient_results (c : Calc V K S P A) (inj : ∀ u v x, c.amb u = some x → c.amb v = some x → u = v) (hamb : ∀ v ∈ c.pvars, ∀ x, c.amb v = some x → x ∉ c.pvars ∧ c.amb x = none)
    (hem : ∀ m ∈ c.emodels, ∀ td, ∀ v ∈ c.pvars, ∀ x, c.amb v = some x → m td x = none) (fd : List S) (ambient : Bool) (p : P) (r : Vals V K) (hr : calcPoint c fd ambient p = .ok r)
    (v x : V) (hv : v ∈ c.pvars) (hx : c.amb v = some x) : r x = runModels c.emodels (c.states p) v ∧ (r x).isSome := by
  unfold calcPoint setAmb at hr
  by_cases hall : (c.pvars.filter (fun v => (c.amb v).isSome)).all (fun v => (runModels c.emodels (c.states p) v).isSome) = true
  · rw [if_pos hall] at hr
    simp only at hr
    have hmem : v ∈ c.pvars.filter (fun v => (c.amb v).isSome) := by rw [List.mem_filter]; exact ⟨hv, by rw [hx]; rfl⟩
    have hsome := List.all_eq_true.1 hall v hmem
    have htd := foldl_amb c.amb inj (runModels c.emodels (c.states p)) (c.pvars.filter (fun v => (c.amb v).isSome)) (runModels c.emodels (c.states p)) x
    have hfind : (c.pvars.filter (fun v => (c.amb v).isSome)).find? (fun u => decide (c.amb u = some x)) = some v := by
      cases hf : (c.pvars.filter (fun v => (c.amb v).isSome)).find? (fun u => decide (c.amb u = some x)) with
      | none =>
        rw [List.find?_eq_none] at hf
        exact absurd (by simpa using hx) (hf v hmem)
      | some u =>
        have := List.find?_some hf
        simp only [decide_eq_true_eq] at this
        rw [inj u v x this hx]
    rw [hfind] at htd
    simp only at htd
    suffices h : r x = runModels c.emodels (c.states p) v by rw [h]; exact ⟨rfl, hsome⟩
    cases ambient with
    | true =>
      simp at hr
      rw [← hr]
      simp only
      rw [(hamb v hv x hx).2]
      simpa using htd
    | false =>
      simp only [Bool.false_eq_true, if_false] at hr
      unfold pointWakes at hr
      split at hr
      · simp at hr
      · rename_i res hres
        simp at hr
        -- the wake models write variables of the states only
        have hnone : ∀ (ws : List (Wake V K S P A)) (res0 res : Vals V K) (td : Vals V K), wakePasses c.pvars fd none p td ws res0 = .ok res → res0 x = none → res x = none := by
          intro ws
          induction ws with
          | nil =>
            intro res0 res td h h0
            simp [wakePasses] at h
            rw [← h]
            exact h0
          | cons w ws ih =>
            intro res0 res td h h0
            unfold wakePasses at h
            split at h
            · rename_i res1 h1
              apply ih res1 res td h
              unfold wakePass at h1
              split at h1
              · simp only at h1
                split at h1
                · simp at h1
                  rw [← h1]
                  simp [known, h0, (hamb v hv x hx).1]
                · simp at h1
              · simp at h1
                rw [← h1]
                exact h0
            · simp at h
        have hrx := hnone _ _ _ _ hres rfl
        have hem2 : ∀ (ms : List (Vals V K → Vals V K)), (∀ m ∈ ms, ∀ td, m td x = none) → ∀ td, runModels ms td x = td x := by
          intro ms
          unfold runModels
          induction ms with
          | nil => intro _ td; rfl
          | cons m ms ih =>
            intro h td
            rw [List.foldl_cons, ih (fun m' hm' => h m' (List.mem_cons_of_mem _ hm'))]
            unfold update
            rw [h m (List.mem_cons_self ..)]
        rw [← hr, hem2 c.emodels (fun m hm td => hem m hm td v hv x hx)]
        unfold update
        rw [hrx]
        exact htd
  · rw [if_neg hall] at hr
    simp at hr

/-- C53 (point models run again): whatever the wakes do, a variable that the last extra point model writes is what that model makes of the waked data. -/
theorem C53_point_models_last (pvars : List V) (ws : List (Wake V K S P A)) (ms : List (Vals V K → Vals V K)) (m : Vals V K → Vals V K) (fd : List S) (only : Option ℕ) (p : P) (td r r' : Vals V K)
    (h : pointWakes pvars ws ms fd only p td = .ok r) (h' : pointWakes pvars ws (ms ++ [m]) fd only p td = .ok r') (v : V) (x : K) (hv : m r v = some x) : r' v = some x := by
  unfold pointWakes at h h'
  split at h
  · simp at h
  · rename_i res hres
    rw [hres] at h'
    simp only [Except.ok.injEq] at h h'
    rw [← h']
    unfold runModels at h ⊢
    rw [List.foldl_append, h]
    simp [update, hv]

/-- C53 (finding): so a point model that computes a variable of the states (say, turbulence intensity from another variable without wakes) erases the wakes in that variable. -/
theorem C53_point_model_erases_wakes :
    ∃ c : Calc Bool ℚ Unit Unit ℚ, ∃ r0 r1 : Vals Bool ℚ, calcPoint { c with emodels := [] } [()] false () = .ok r0 ∧ r0 true = some (3 / 2) ∧
      calcPoint c [()] false () = .ok r1 ∧ r1 true = some 1 ∧ (∀ p, runModels c.emodels (c.states p) true = c.states p true) := by
  let w : Wake Bool ℚ Unit Unit ℚ := ⟨[true], 0, fun _ _ d => d + 1 / 2, fun _ d _ => d⟩
  let c : Calc Bool ℚ Unit Unit ℚ := ⟨fun _ => none, [true, false], fun _ _ => some 1, [fun td v => if v then td false else none], [w]⟩
  refine ⟨c, _, _, rfl, ?_, rfl, ?_, ?_⟩
  · simp [runModels, update, known, c, w, deltas]; norm_num
  · simp [runModels, update, known, c, w, deltas]
  · intro p
    simp [runModels, update, c]

/-- C53 (finding): an ambient point calculation without farm results is let through the first check and then fails. -/
theorem C53_ambient_needs_farm_results (c : Calc V K S P A) (pts : List P) : calcPoints c none true pts = .error .attributeError ∧ calcPoints c none false pts = .error .valueError := ⟨rfl, rfl⟩

/-- C53 (points are independent): the result of each point depends on that point only. -/
theorem C53_points_independent (c : Calc V K S P A) (fd : List S) (ambient : Bool) (pts : List P) (rs : List (Vals V K)) (h : calcPoints c (some fd) ambient pts = .ok rs) :
    rs.length = pts.length ∧ ∀ (i : ℕ) (p : P), pts[i]? = some p → ∃ r, calcPoint c fd ambient p = .ok r ∧ rs[i]? = some r := by
  unfold calcPoints at h
  simp only at h
  induction pts generalizing rs with
  | nil =>
    simp [pure, Except.pure] at h
    subst h
    simp
  | cons q pts ih =>
    rw [List.mapM_cons] at h
    cases h1 : calcPoint c fd ambient q with
    | error e => rw [h1] at h; simp [bind, Except.bind] at h
    | ok r =>
      rw [h1] at h
      cases h2 : pts.mapM (calcPoint c fd ambient) with
      | error e => rw [h2] at h; simp [bind, Except.bind] at h
      | ok l =>
        rw [h2] at h
        simp [bind, Except.bind, pure, Except.pure] at h
        subst h
        obtain ⟨g1, g2⟩ := ih l h2
        refine ⟨by simp [g1], ?_⟩
        intro i p hi
        cases i with
        | zero =>
          simp at hi
          subst hi
          exact ⟨r, h1, by simp⟩
        | succ i => exact g2 i p (by simpa using hi)

/-! ### Turbine results and point results -/

/-- the wake model of a farm calculation, for points: turbines are pairs of position and farm data column -/
def toPoint (w : Downwind.Wake P S A (V → K)) (keys : List V) (f : (V → K) → A → V → K) (z : A) : Wake V K (P × S) P A :=
  ⟨keys, z, fun s p d => w.add s.1 s.2 p d, fun a d v => f (fun u => (a u).getD 0) d v⟩

lemma foldl_drop_neutral {α β : Type} (g : β → α → β) (l : List α) (b : β) (h : ∀ a ∈ l, ∀ d, g d a = d) : l.foldl g b = b := by
  induction l generalizing b with
  | nil => rfl
  | cons a l ih => rw [List.foldl_cons, h a (List.mem_cons_self ..)]; exact ih _ (fun a' ha' => h a' (List.mem_cons_of_mem _ ha'))

/-- C53 (points and turbines agree): in a farm calculation with one downwind wake model, the flow that turbine `j` is evaluated with is the point result at its place, calculated from the farm results in any
order of the turbines - if contributions commute, and neither the turbine itself nor those behind it contribute there. -/
theorem C53_turbine_agrees (c : Downwind.Farm P S (V → K)) (hplus : ∀ a b v, c.plus a b v = a v + b v) (w : Downwind.Wake P S A (V → K)) (hw : w.down = true) (pos : ℕ → P) (n : ℕ)
    (z : A) (hz : ∀ q, w.acc0 q = z) (f : (V → K) → A → V → K) (hf : ∀ q, w.fin q = f) (keys pvars : List V) (hkeys : ∀ v ∈ keys, v ∈ pvars)
    (hf0 : ∀ a d v, v ∉ keys → f a d v = 0) (hread : ∀ a b d v, (∀ u ∈ keys, a u = b u) → f a d v = f b d v)
    (hcomm : ∀ q s q' s' p d, w.add q s p (w.add q' s' p d) = w.add q' s' p (w.add q s p d))
    (fd : ℕ → S) (hfd : Downwind.farmWakes c [w] pos n = .ok fd) (j : ℕ) (hj0 : 0 < j) (hjn : j < n) (hown : ∀ i, j ≤ i → i < n → ∀ d, w.add (pos i) (fd i) (pos j) d = d)
    (cols : List (P × S)) (hcols : cols.Perm ((List.range n).map (fun i => (pos i, fd i)))) :
    ∃ flow : V → K, fd j = c.eval (pos j) flow (c.init (pos j)) ∧
      ∃ r, pointWakes pvars [toPoint w keys f z] [] cols none (pos j) (fun v => some (c.amb (pos j) v)) = .ok r ∧ ∀ v ∈ pvars, r v = some (flow v) := by
  obtain ⟨fd', h1, _, h3⟩ := Downwind.C12_downwind c w hw pos n
  rw [hfd] at h1
  obtain rfl : fd = fd' := by simpa using h1
  refine ⟨_, h3 j hj0 hjn, ?_⟩
  obtain ⟨r, g1, g2, _⟩ := C53_point_wakes pvars cols (pos j) (fun v => some (c.amb (pos j) v)) (c.amb (pos j)) (fun v _ => rfl) [toPoint w keys f z]
    (fun w' hw' => by rw [List.mem_singleton] at hw'; subst hw'; exact hkeys)
    (fun w' hw' a b d v h => by
      rw [List.mem_singleton] at hw'
      subst hw'
      exact hread _ _ d v (fun u hu => by rw [h u hu]))
  refine ⟨r, g1, ?_⟩
  intro v hv
  rw [g2 v hv]
  congr 1
  have hd : allWakes (toPoint w keys f z) cols (pos j) = Downwind.upstreamWakes w pos fd j := by
    unfold allWakes toPoint
    simp only
    have hperm := hcols.foldl_eq' (f := fun d (s : P × S) => w.add s.1 s.2 (pos j) d) (fun x _ y _ d => (hcomm _ _ _ _ _ _)) z
    rw [hperm, List.foldl_map]
    have hsplit : List.range n = List.range j ++ (List.range (n - j)).map (fun i => j + i) := by
      rw [← List.range_add]
      congr 1
      omega
    rw [hsplit, List.foldl_append, foldl_drop_neutral _ ((List.range (n - j)).map (fun i => j + i))]
    · unfold Downwind.upstreamWakes
      rw [hz]
    · intro i hi d
      rw [List.mem_map] at hi
      obtain ⟨m, hm, rfl⟩ := hi
      have := List.mem_range.1 hm
      exact hown (j + m) (by omega) (by omega) d
  unfold waked
  rw [hplus, hf, hd]
  unfold waked
  show (if v ∈ keys then c.amb (pos j) v + f (c.amb (pos j)) (Downwind.upstreamWakes w pos fd j) v else c.amb (pos j) v) = _
  by_cases hvk : v ∈ keys
  · rw [if_pos hvk]
  · rw [if_neg hvk, hf0 _ _ _ hvk, add_zero]

/-! ### Examples and findings -/

/-- turbines on a line, numbered downstream; the column of a turbine is the wind speed at its rotor; no wakes: 8 m/s -/
def exFarm : Downwind.Farm ℕ ℚ (Unit → ℚ) := ⟨fun _ => 8, fun _ _ => 8, fun a b v => a v + b v, fun _ r _ => r ()⟩

/-- every turbine takes an eighth of its wind speed from all that are behind it (WSLinear, scaled with the turbine's wind speed, ws_linear.py) -/
def exWake : Downwind.Wake ℕ ℚ ℚ (Unit → ℚ) := ⟨fun _ => 0, fun q s p d => if q < p then d - s / 8 else d, fun _ _ d _ => d, true⟩

/-- hypotheses of `C53_turbine_agrees` are met by a farm with wakes: three turbines see 8, 7 and 6.125 m/s -/
example : ∃ fd, Downwind.farmWakes exFarm [exWake] id 3 = .ok fd ∧ fd 1 = 7 ∧ fd 2 = 49 / 8 ∧ (∀ i, 2 ≤ i → i < 3 → ∀ d, exWake.add (id i) (fd i) (id 2) d = d) ∧
    (∀ q s q' s' p d, exWake.add q s p (exWake.add q' s' p d) = exWake.add q' s' p (exWake.add q s p d)) := by
  refine ⟨_, rfl, by decide +kernel, by decide +kernel, ?_, ?_⟩
  · intro i h1 h2 d
    have : i = 2 := by omega
    subst this
    simp [exWake]
  · intro q s q' s' p d
    unfold exWake
    simp only
    split <;> split <;> ring

/-- local superposition (WSLinearLocal, ws_linear.py:290, 332): half of the wind speed is lost behind a turbine -/
def halfWake : Downwind.Wake ℕ ℚ ℚ (Unit → ℚ) := ⟨fun _ => 0, fun q _ p d => if q < p then d - 1 / 2 else d, fun _ a d v => d * a v, true⟩

def halfPoint : Wake Unit ℚ (ℕ × ℚ) ℕ ℚ := toPoint halfWake [()] (fun a d v => d * a v) 0

/-- C53 (finding): with two wake models whose final deltas scale with the ambient value, points and turbines disagree: the second turbine of two is left without wind, the point at its place has a quarter of
the wind, since the second model takes the waked value for the ambient one (point_wakes_calc.py:133-143). -/
theorem C53_two_models_finding :
    ∃ fd, Downwind.farmWakes exFarm [halfWake, halfWake] id 2 = .ok fd ∧ fd 1 = 0 ∧
      ∃ r, pointWakes [()] [halfPoint, halfPoint] [] [(0, fd 0), (1, fd 1)] none 1 (fun _ => some 8) = .ok r ∧ r () = some 2 := by
  refine ⟨_, rfl, by decide +kernel, _, rfl, by decide +kernel⟩

/-- an absolute deficit of 2 m/s -/
def twoPoint : Wake Unit ℚ (ℕ × ℚ) ℕ ℚ := ⟨[()], 0, fun s p d => if s.1 < p then d - 2 else d, fun _ d _ => d⟩

/-- C53 (finding): then the order of the wake models matters, too. -/
theorem C53_order_of_models_finding :
    ∃ r r', pointWakes [()] [twoPoint, halfPoint] [] [(0, 8)] none 1 (fun _ => some 8) = .ok r ∧ r () = some 3 ∧
      pointWakes [()] [halfPoint, twoPoint] [] [(0, 8)] none 1 (fun _ => some 8) = .ok r' ∧ r' () = some 2 := by
  refine ⟨_, _, rfl, by decide +kernel, rfl, by decide +kernel⟩

/-- hypotheses of `C53_point_wakes`, `C53_models_add_up` are met -/
example : Reads halfPoint ∧ AmbFree twoPoint ∧ ¬ AmbFree halfPoint := by
  refine ⟨?_, ?_, ?_⟩
  · intro a b d v h
    have := h () (by simp [halfPoint, toPoint])
    cases v
    simp [halfPoint, toPoint, this]
  · intro a b d v
    rfl
  · intro h
    have := h (fun _ => some 1) (fun _ => some 2) 1 ()
    simp [halfPoint, toPoint] at this

/-- a point between the turbines and one far upstream: waked and ambient -/
example : ∃ r r', pointWakes [()] [twoPoint] [] [(3, 8), (5, 7)] none 4 (fun _ => some 8) = .ok r ∧ r () = some 6 ∧
    pointWakes [()] [twoPoint] [] [(3, 8), (5, 7)] none 2 (fun _ => some 8) = .ok r' ∧ r' () = some 8 := by
  refine ⟨_, _, rfl, by decide +kernel, rfl, by decide +kernel⟩

/-- the whole list of models: wind speed (true) and its ambient name (false) -/
example : ∃ r, calcPoint (⟨fun v => if v then some false else none, [true], fun _ v => if v then some 8 else none, [],
    [⟨[true], 0, fun s p d => if s.1 < p then d - 2 else d, fun _ d _ => d⟩]⟩ : Calc Bool ℚ (ℕ × ℚ) ℕ ℚ) [(0, 8)] false 1 = .ok r ∧ r true = some 6 ∧ r false = some 8 := by
  refine ⟨_, rfl, by decide +kernel, by decide +kernel⟩

end Foxes.Props.PointCalc
