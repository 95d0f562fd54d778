import Verif.Model.Superposition
import Mathlib.Tactic.Linarith
import Mathlib.Tactic.Positivity
import Mathlib.Tactic.NormNum
import Mathlib.Tactic.Ring
import Mathlib.Algebra.Order.BigOperators.Group.List
import Mathlib.Algebra.Order.BigOperators.Ring.List
/-
C24 (order independence), C25 (limits, neutral element) of the wake superposition models.
-/
namespace Foxes.Props.Superposition
open Foxes.Superposition

variable {ι : Type}

/-- the (scale, result) pairs of those wakes that hit target `i`, in the order they are added -/
def hits (l : List (Wake ι)) (i : ι) : List (ℝ × ℝ) := l.filterMap fun c => (c.w i).map fun w => (c.scale, w)

theorem foldl_hits (k : Kind) (l : List (Wake ι)) (i : ι) (d : ι → ℝ) :
    l.foldl (addWake k) d i = (hits l i).foldl (fun a p => add k a p.1 p.2) (d i) := by
  induction l generalizing d with
  | nil => rfl
  | cons c l ih =>
    rw [List.foldl_cons, ih]
    unfold hits
    cases h : c.w i with
    | none => simp [addWake, h]
    | some w => simp [addWake, h]

theorem add_comm' (k : Kind) (a s w s' w' : ℝ) : add k (add k a s w) s' w' = add k (add k a s' w') s w := by
  cases k <;> simp only [add]
  case wsMax => rw [max_assoc, max_comm |s * w|, ← max_assoc]
  case wsMaxLocal => rw [max_assoc, max_comm |w|, ← max_assoc]
  case tiMax => rw [← max_assoc, max_comm w' w, max_assoc]
  all_goals ring

/-- **C24.** For all superposition models but WSProduct, the final wake deltas at all targets do not depend on the order in which
the wakes are added. -/
theorem C24_order_independent (k : Kind) (t : ToAmb) (low high : Option ℝ) (amb : ι → ℝ) (l l' : List (Wake ι))
    (h : l.Perm l') : superpose k t low high amb l = superpose k t low high amb l' := by
  funext i
  unfold superpose
  rw [foldl_hits, foldl_hits]
  have hp : (hits l i).Perm (hits l' i) := h.filterMap _
  haveI : RightCommutative (fun (a : ℝ) (p : ℝ × ℝ) => add k a p.1 p.2) := ⟨fun a p q => add_comm' k a _ _ _ _⟩
  rw [hp.foldl_eq]

/-! ### What the models compute -/

theorem foldl_sum {α : Type} (f : α → ℝ) (l : List α) (a : ℝ) : l.foldl (fun a p => a + f p) a = a + (l.map f).sum := by
  induction l generalizing a with
  | nil => simp
  | cons x l ih => rw [List.foldl_cons, ih, List.map_cons, List.sum_cons]; ring

theorem foldl_max {α : Type} (f : α → ℝ) (l : List α) (a : ℝ) :
    a ≤ l.foldl (fun a p => max a (f p)) a ∧ (∀ x ∈ l, f x ≤ l.foldl (fun a p => max a (f p)) a) ∧
    (l.foldl (fun a p => max a (f p)) a = a ∨ ∃ x ∈ l, l.foldl (fun a p => max a (f p)) a = f x) := by
  induction l generalizing a with
  | nil => simp
  | cons x l ih =>
    obtain ⟨h1, h2, h3⟩ := ih (max a (f x))
    rw [List.foldl_cons]
    refine ⟨le_trans (le_max_left _ _) h1, ?_, ?_⟩
    · intro y hy
      rcases List.mem_cons.1 hy with rfl | hy
      · exact le_trans (le_max_right _ _) h1
      · exact h2 y hy
    · rcases h3 with h3 | ⟨y, hy, h3⟩
      · rw [h3]
        rcases max_choice a (f x) with h | h
        · exact Or.inl h
        · exact Or.inr ⟨x, List.mem_cons_self, h⟩
      · exact Or.inr ⟨y, List.mem_cons_of_mem _ hy, h3⟩

/-- **C24 (closed forms).** Without limits, the wind speed deltas are: the sum of the scaled deficits, minus the root of the sum
of squares, minus the `p`-norm; `…Local` models scale with the ambient wind speed of the target instead. -/
theorem C24_closed_forms (t : ToAmb) (amb : ι → ℝ) (l : List (Wake ι)) (i : ι) (p : ℝ) :
    superpose .wsLinear t none none amb l i = ((hits l i).map fun c => c.1 * c.2).sum ∧
    superpose .wsLinearLocal t none none amb l i = ((hits l i).map fun c => c.2).sum * amb i ∧
    superpose .wsQuadratic t none none amb l i = -√((hits l i).map fun c => (c.1 * c.2) ^ 2).sum ∧
    superpose .wsQuadraticLocal t none none amb l i = -√((hits l i).map fun c => c.2 ^ 2).sum * amb i ∧
    superpose (.wsPow p) t none none amb l i = -(((hits l i).map fun c => |c.1 * c.2| ^ p).sum ^ (1 / p)) ∧
    superpose (.wsPowLocal p) t none none amb l i = -(((hits l i).map fun c => |c.2| ^ p).sum ^ (1 / p)) * amb i ∧
    superpose .tiLinear .linear none none amb l i = ((hits l i).map fun c => c.2).sum ∧
    superpose .tiQuadratic .quadratic none none amb l i = √(((hits l i).map fun c => c.2 ^ 2).sum + amb i ^ 2) - amb i := by
  have e0 : (fun _ : ι => (0 : ℝ)) i = 0 := rfl
  simp only [superpose, fin, isTI, clip, raw, foldl_hits, add]
  refine ⟨?_, ?_, ?_, ?_, ?_, ?_, ?_, ?_⟩
  · exact (foldl_sum (fun c : ℝ × ℝ => c.1 * c.2) _ _).trans (zero_add _)
  · exact congrArg (· * amb i) ((foldl_sum (fun c : ℝ × ℝ => c.2) _ _).trans (zero_add _))
  · exact congrArg (fun x => -√x) ((foldl_sum (fun c : ℝ × ℝ => (c.1 * c.2) ^ 2) _ _).trans (zero_add _))
  · exact congrArg (fun x => -√x * amb i) ((foldl_sum (fun c : ℝ × ℝ => c.2 ^ 2) _ _).trans (zero_add _))
  · exact congrArg (fun x => -(x ^ (1 / p))) ((foldl_sum (fun c : ℝ × ℝ => |c.1 * c.2| ^ p) _ _).trans (zero_add _))
  · exact congrArg (fun x => -(x ^ (1 / p)) * amb i) ((foldl_sum (fun c : ℝ × ℝ => |c.2| ^ p) _ _).trans (zero_add _))
  · exact (foldl_sum (fun c : ℝ × ℝ => c.2) _ _).trans (zero_add _)
  · exact congrArg (fun x => √(x + amb i ^ 2) - amb i) ((foldl_sum (fun c : ℝ × ℝ => c.2 ^ 2) _ _).trans (zero_add _))

/-- **C24 (maximum).** WSMax: minus the largest of the deficits' magnitudes, zero if there are none. -/
theorem C24_max_form (t : ToAmb) (amb : ι → ℝ) (l : List (Wake ι)) (i : ι) :
    let δ := superpose .wsMax t none none amb l i
    δ ≤ 0 ∧ (∀ c ∈ hits l i, δ ≤ -|c.1 * c.2|) ∧ (δ = 0 ∨ ∃ c ∈ hits l i, δ = -|c.1 * c.2|) := by
  obtain ⟨h1, h2, h3⟩ := foldl_max (fun c : ℝ × ℝ => |c.1 * c.2|) (hits l i) 0
  simp only [superpose, fin, isTI, clip, raw, foldl_hits, add]
  refine ⟨by simpa using h1, fun c hc => neg_le_neg (h2 c hc), ?_⟩
  rcases h3 with h3 | ⟨c, hc, h3⟩
  · exact Or.inl (by simpa using h3)
  · exact Or.inr ⟨c, hc, by rw [← h3]; simp⟩

/-- **C24 (ordering of the models).** For the same wakes the maximum gives the smallest reduction, then the quadratic, then the
linear superposition of the magnitudes. -/
theorem C24_max_le_quadratic_le_linear (t : ToAmb) (amb : ι → ℝ) (l : List (Wake ι)) (i : ι) :
    -((hits l i).map fun c => |c.1 * c.2|).sum ≤ superpose .wsQuadratic t none none amb l i ∧
    superpose .wsQuadratic t none none amb l i ≤ superpose .wsMax t none none amb l i ∧
    superpose .wsMax t none none amb l i ≤ 0 := by
  obtain ⟨m1, m2, m3⟩ := C24_max_form t amb l i
  obtain ⟨-, -, q, -⟩ := C24_closed_forms t amb l i 2
  rw [q]
  have hsq : ∀ h : List (ℝ × ℝ), 0 ≤ (h.map fun c => (c.1 * c.2) ^ 2).sum := by
    intro h; apply List.sum_nonneg; intro x hx; obtain ⟨c, _, rfl⟩ := List.mem_map.1 hx; positivity
  have habs : ∀ h : List (ℝ × ℝ), 0 ≤ (h.map fun c => |c.1 * c.2|).sum := by
    intro h; apply List.sum_nonneg; intro x hx; obtain ⟨c, _, rfl⟩ := List.mem_map.1 hx; positivity
  refine ⟨neg_le_neg ?_, ?_, m1⟩
  · rw [Real.sqrt_le_left (habs _)]
    induction (hits l i) with
    | nil => simp
    | cons c h ih =>
      simp only [List.map_cons, List.sum_cons]
      have h1 : (c.1 * c.2) ^ 2 = |c.1 * c.2| ^ 2 := (sq_abs _).symm
      have h2 : 0 ≤ |c.1 * c.2| := abs_nonneg _
      have h3 := habs h
      nlinarith
  · rcases m3 with h0 | ⟨c, hc, h0⟩
    · rw [h0]; simpa using Real.sqrt_nonneg _
    · rw [h0]
      apply neg_le_neg
      apply Real.le_sqrt_of_sq_le
      rw [sq_abs]
      exact List.single_le_sum (by intro x hx; obtain ⟨c, _, rfl⟩ := List.mem_map.1 hx; positivity) _
        (List.mem_map.2 ⟨c, hc, rfl⟩)

/-! ### WSProduct -/

/-- product of the factors `1 + w` at a target -/
noncomputable def factor (l : List (Wake ι)) (i : ι) : ℝ := ((hits l i).map fun c => 1 + c.2).prod

theorem factor_append (l l' : List (Wake ι)) (i : ι) : factor (l ++ l') i = factor l i * factor l' i := by
  simp [factor, hits]

theorem addProduct_spec (d : ι → ℝ) (c : Wake ι) (hd : ¬ ∀ i, |d i| < 1e-14) (i : ι) :
    addProduct d c i = d i * factor [c] i := by
  unfold addProduct factor hits
  rw [if_neg hd]
  cases h : c.w i <;> simp [h]

theorem addProduct_first (c : Wake ι) (i : ι) : addProduct (fun _ => 0) c i = factor [c] i := by
  unfold addProduct factor hits
  rw [if_pos (by intro i; norm_num)]
  cases h : c.w i <;> simp [h]

theorem prod_mono_one (l : List ℝ) (h : ∀ x ∈ l, 0 ≤ x ∧ x ≤ 1) : 0 ≤ l.prod ∧ l.prod ≤ 1 := by
  induction l with
  | nil => simp
  | cons x l ih =>
    obtain ⟨h1, h2⟩ := h x List.mem_cons_self
    obtain ⟨h3, h4⟩ := ih (fun y hy => h y (List.mem_cons_of_mem _ hy))
    rw [List.prod_cons]
    exact ⟨mul_nonneg h1 h3, by nlinarith⟩

/-- **C24 (WSProduct, partial).** If there is at least one wake, all wakes are proper deficits (`-1 ≤ w ≤ 0`), and at some target
the total product does not fall below 1e-14, then WSProduct computes `amb * (∏ (1 + w) - 1)`: independent of the order. -/
theorem C24_product_partial (low high : Option ℝ) (amb : ι → ℝ) (l : List (Wake ι)) (hl : l ≠ [])
    (hw : ∀ i, ∀ c ∈ hits l i, -1 ≤ c.2 ∧ c.2 ≤ 0) (i0 : ι) (h0 : 1e-14 ≤ factor l i0) (i : ι) :
    superposeProduct low high amb l i = clip low high (amb i) (amb i * (factor l i - 1)) := by
  have key : ∀ (post pre : List (Wake ι)), pre ≠ [] → pre ++ post = l →
      ∀ i, post.foldl addProduct (factor pre) i = factor l i := by
    intro post
    induction post with
    | nil => intro pre _ h i; rw [List.append_nil] at h; rw [h]; rfl
    | cons c post ih =>
      intro pre hne h i
      rw [List.foldl_cons]
      have hsmall : ¬ ∀ i, |factor pre i| < 1e-14 := by
        intro hall
        have h1 := hall i0
        have h2 : factor l i0 = factor pre i0 * factor (c :: post) i0 := by rw [← h, factor_append]
        have hin : ∀ (q : List (Wake ι)), (∀ x ∈ hits q i0, x ∈ hits l i0) → 0 ≤ factor q i0 ∧ factor q i0 ≤ 1 := by
          intro q hq
          apply prod_mono_one
          intro x hx
          obtain ⟨y, hy, rfl⟩ := List.mem_map.1 hx
          have := hw i0 y (hq y hy)
          exact ⟨by linarith, by linarith⟩
        have hsub : hits l i0 = hits pre i0 ++ hits (c :: post) i0 := by rw [← h]; simp [hits]
        obtain ⟨a1, a2⟩ := hin pre (fun x hx => by rw [hsub]; exact List.mem_append_left _ hx)
        obtain ⟨b1, b2⟩ := hin (c :: post) (fun x hx => by rw [hsub]; exact List.mem_append_right _ hx)
        rw [abs_of_nonneg a1] at h1
        nlinarith
      have e : addProduct (factor pre) c = factor (pre ++ [c]) := by
        funext j; rw [addProduct_spec _ _ hsmall, factor_append]
      rw [e]
      exact ih (pre ++ [c]) (by simp) (by simpa using h) i
  unfold superposeProduct
  cases l with
  | nil => exact absurd rfl hl
  | cons c l =>
    rw [List.foldl_cons]
    have e : addProduct (fun _ => (0 : ℝ)) c = factor [c] := by funext j; exact addProduct_first c j
    rw [e, key l [c] (by simp) rfl i]

/-- … hence independent of the order -/
theorem C24_product_order_partial (low high : Option ℝ) (amb : ι → ℝ) (l l' : List (Wake ι)) (hp : l.Perm l') (hl : l ≠ [])
    (hw : ∀ i, ∀ c ∈ hits l i, -1 ≤ c.2 ∧ c.2 ≤ 0) (i0 : ι) (h0 : 1e-14 ≤ factor l i0) :
    superposeProduct low high amb l = superposeProduct low high amb l' := by
  have hperm : ∀ i, (hits l i).Perm (hits l' i) := fun i => hp.filterMap _
  have hf : ∀ i, factor l i = factor l' i := fun i => ((hperm i).map _).prod_eq
  funext i
  rw [C24_product_partial low high amb l hl hw i0 h0,
    C24_product_partial low high amb l' (by intro h; exact hl (by rw [h] at hp; exact hp.eq_nil))
      (fun i c hc => hw i c ((hperm i).mem_iff.2 hc)) i0 (by rw [← hf]; exact h0), hf]

/-- **C24 (WSProduct, finding).** The order matters if a wake blocks the wind completely at all targets of the chunk: the next wake
starts again from the undisturbed wind. -/
theorem C24_product_order_counterexample :
    let full : Wake Unit := ⟨1, fun _ => some (-1)⟩
    let half : Wake Unit := ⟨1, fun _ => some (-1 / 2)⟩
    superposeProduct none none (fun _ => 10) [full, half] () = -5 ∧
    superposeProduct none none (fun _ => 10) [half, full] () = -10 := by
  intro full half
  have h0 : ∀ c : Wake Unit, addProduct (fun _ => 0) c = factor [c] := fun c => by funext j; exact addProduct_first c j
  have hf : factor [full] = fun _ => 0 := by funext j; simp [factor, hits, full]
  have hh : factor [half] = fun _ => 1 / 2 := by funext j; simp [factor, hits, half]; norm_num
  constructor
  · simp only [superposeProduct, clip, List.foldl_cons, List.foldl_nil, h0, hf, hh]
    norm_num
  · simp only [superposeProduct, clip, List.foldl_cons, List.foldl_nil, h0, hh]
    rw [addProduct_spec _ _ (by intro h; have := h (); norm_num at this), hf]
    norm_num

/-- **C24 (WSProduct, finding).** The result at a target depends on which other targets are in the same array (i.e. on the chunking):
the same two wakes at the same target, alone and next to an unwaked target. -/
theorem C24_product_depends_on_neighbours :
    superposeProduct none none (fun _ : Unit => 10) [⟨1, fun _ => some (-1)⟩, ⟨1, fun _ => some (-1 / 2)⟩] () = -5 ∧
    superposeProduct none none (fun _ : Bool => 10)
      [⟨1, fun i => if i then some (-1) else none⟩, ⟨1, fun i => if i then some (-1 / 2) else none⟩] true = -10 := by
  refine ⟨C24_product_order_counterexample.1, ?_⟩
  rw [C24_product_partial _ _ _ _ (by simp) _ false _]
  · simp [factor, hits, clip]
  · intro i c hc
    cases i <;> simp [hits] at hc
    rcases hc with rfl | rfl <;> norm_num
  · simp [factor, hits]; norm_num

/-! ### C25 -/

/-- **C25 (limits).** For every wind speed superposition (also WSProduct), the waked wind speed `amb + δ` is at most `lim_high` and,
unless the limits contradict each other, at least `lim_low`. -/
theorem C25_limits (k : Kind) (hk : isTI k = false) (t : ToAmb) (low high : Option ℝ) (amb : ι → ℝ) (l : List (Wake ι)) (i : ι)
    (δ : ℝ) (hδ : δ = superpose k t low high amb l i ∨ δ = superposeProduct low high amb l i) :
    (∀ h, high = some h → amb i + δ ≤ h) ∧
    (∀ b, low = some b → (∀ h, high = some h → b ≤ h) → b ≤ amb i + δ) := by
  have hc : ∃ w, δ = clip low high (amb i) w := by
    rcases hδ with h | h
    · exact ⟨_, by rw [h]; unfold superpose fin; rw [hk]; rfl⟩
    · exact ⟨_, h⟩
  obtain ⟨w, rfl⟩ := hc
  constructor
  · rintro h rfl
    have : clip low (some h) (amb i) w ≤ h - amb i := by unfold clip; exact min_le_right _ _
    linarith
  · rintro b rfl hb
    have : b - amb i ≤ clip (some b) high (amb i) w := by
      unfold clip
      cases high with
      | none => exact le_max_right _ _
      | some h => exact le_min (le_max_right _ _) (by have := hb h rfl; linarith)
    linarith

/-- **C25 (no limits for turbulence intensity).** The four superpositions of turbulence intensities know no limits. -/
theorem C25_ti_unlimited (k : Kind) (hk : k = .tiLinear ∨ k = .tiQuadratic ∨ k = .tiMax ∨ ∃ p, k = .tiPow p) (t : ToAmb)
    (low high : Option ℝ) (amb : ι → ℝ) (l : List (Wake ι)) (i : ι) :
    superpose k t low high amb l i = superpose k t none none amb l i := by
  rcases hk with rfl | rfl | rfl | ⟨p, rfl⟩ <;> rfl

/-- **C25 (limits that do not bind).** If the unlimited result respects the limits, limits change nothing. -/
theorem C25_limits_not_binding (k : Kind) (t : ToAmb) (low high : Option ℝ) (amb : ι → ℝ) (l : List (Wake ι)) (i : ι)
    (hl : ∀ b, low = some b → b ≤ amb i + superpose k t none none amb l i)
    (hh : ∀ h, high = some h → amb i + superpose k t none none amb l i ≤ h) :
    superpose k t low high amb l i = superpose k t none none amb l i := by
  by_cases hk : isTI k = true
  · simp [superpose, fin, hk]
  · simp only [superpose, fin, hk, Bool.false_eq_true, if_false] at *
    rw [show ∀ x, clip none none (amb i) x = x from fun _ => rfl] at *
    cases low with
    | none =>
      cases high with
      | none => rfl
      | some h => exact min_eq_left (by have := hh h rfl; linarith)
    | some b =>
      have e : max (raw k t (amb i) (l.foldl (addWake k) (fun _ => 0) i)) (b - amb i) = _ :=
        max_eq_left (by have := hl b rfl; linarith)
      cases high with
      | none => exact e
      | some h =>
        unfold clip
        simp only [e]
        exact min_eq_left (by have := hh h rfl; linarith)

/-- exponents of the power superpositions are positive -/
def PowPos : Kind → Prop
  | .wsPow p | .wsPowLocal p | .tiPow p => 0 < p
  | _ => True

theorem add_zero' (k : Kind) (hp : PowPos k) (a s : ℝ) (ha : 0 ≤ a) : add k a s 0 = a := by
  cases k <;> simp only [add, mul_zero, add_zero, abs_zero]
  case wsQuadratic => simp
  case wsQuadraticLocal => simp
  case wsPow p => rw [Real.zero_rpow (ne_of_gt hp), add_zero]
  case wsPowLocal p => rw [Real.zero_rpow (ne_of_gt hp), add_zero]
  case tiPow p => rw [Real.zero_rpow (ne_of_gt hp), add_zero]
  case tiQuadratic => simp
  case wsMax => exact max_eq_left ha
  case wsMaxLocal => exact max_eq_left ha
  case tiMax => exact max_eq_right ha

theorem raw_zero (k : Kind) (hp : PowPos k) (t : ToAmb) (amb : ℝ) (ha : 0 ≤ amb) : raw k t amb 0 = 0 := by
  have h1 : ∀ p : ℝ, 0 < p → (0 : ℝ) ^ (p⁻¹) = 0 := fun p hp => Real.zero_rpow (by positivity)
  have h2 : ∀ p : ℝ, 0 < p → (0 : ℝ) ^ (2 / p) = 0 := fun p hp => Real.zero_rpow (by positivity)
  cases k <;> cases t <;> simp_all [raw, PowPos, Real.sqrt_sq]

/-- **C25 (no wakes).** A target hit by no wakes gets a zero wake delta, for every superposition model but WSProduct (ambient value
non-negative and within the limits). -/
theorem C25_no_wakes (k : Kind) (hp : PowPos k) (t : ToAmb) (low high : Option ℝ) (amb : ι → ℝ) (l : List (Wake ι)) (i : ι)
    (hl : ∀ c ∈ l, c.w i = none) (ha : 0 ≤ amb i) (hlow : ∀ b, low = some b → b ≤ amb i)
    (hhigh : ∀ h, high = some h → amb i ≤ h) : superpose k t low high amb l i = 0 := by
  have h0 : superpose k t none none amb l i = 0 := by
    have : hits l i = [] := by
      unfold hits
      rw [List.filterMap_eq_nil_iff]
      intro c hc; rw [hl c hc]; rfl
    unfold superpose
    rw [foldl_hits, this]
    unfold fin
    rw [show ∀ x, clip none none (amb i) x = x from fun _ => rfl, ite_self]
    exact raw_zero k hp t _ ha
  rw [C25_limits_not_binding k t low high amb l i (by rw [h0]; simpa using hlow) (by rw [h0]; simpa using hhigh), h0]

/-- **C25 (zero wakes).** A wake whose result is zero changes nothing at any target, wherever in the order it is added. -/
theorem C25_zero_wake_neutral (k : Kind) (hp : PowPos k) (t : ToAmb) (low high : Option ℝ) (amb : ι → ℝ)
    (l l' : List (Wake ι)) (s : ℝ) (sel : ι → Option ℝ) (hz : ∀ i w, sel i = some w → w = 0) :
    superpose k t low high amb (l ++ ⟨s, sel⟩ :: l') = superpose k t low high amb (l ++ l') := by
  rw [C24_order_independent k t low high amb (l ++ ⟨s, sel⟩ :: l') (⟨s, sel⟩ :: (l ++ l')) List.perm_middle]
  funext i
  unfold superpose
  rw [List.foldl_cons]
  congr 1
  rw [foldl_hits, foldl_hits]
  congr 1
  unfold addWake
  cases h : sel i with
  | none => simp [h]
  | some w => simp only [h]; rw [hz i w h]; exact add_zero' k hp 0 s (le_refl _)

/-- **C25 (WSProduct, finding).** If no wake is added at all (no turbine wakes any target), WSProduct reduces the wind speed to zero
instead of leaving it unchanged. -/
theorem C25_product_no_wakes_finding (amb : ι → ℝ) (i : ι) :
    amb i + superposeProduct none none amb [] i = 0 := by
  simp [superposeProduct, clip]

/-- **C25 (WSProduct, partial).** An unwaked target gets zero wake delta if at least one wake hits some other target or none at all is
selected (under the conditions of `C24_product_partial`). -/
theorem C25_product_unwaked_target_partial (amb : ι → ℝ) (l : List (Wake ι)) (hl : l ≠ [])
    (hw : ∀ i, ∀ c ∈ hits l i, -1 ≤ c.2 ∧ c.2 ≤ 0) (i : ι) (hi : ∀ c ∈ l, c.w i = none) :
    superposeProduct none none amb l i = 0 := by
  have hh : hits l i = [] := by
    unfold hits
    rw [List.filterMap_eq_nil_iff]
    intro c hc; rw [hi c hc]; rfl
  have hf : factor l i = 1 := by simp [factor, hh]
  rw [C24_product_partial none none amb l hl hw i (by rw [hf]; norm_num), hf]
  simp [clip]

/-- **C25 (sign).** Whatever the wakes, the quadratic, power and maximum superpositions never increase the wind speed, and the TI
superpositions never decrease the turbulence intensity below ambient. -/
theorem C25_sign (amb : ι → ℝ) (ha : ∀ i, 0 ≤ amb i) (t : ToAmb) (p : ℝ) (l : List (Wake ι)) (i : ι) :
    superpose .wsQuadratic t none none amb l i ≤ 0 ∧ superpose .wsQuadraticLocal t none none amb l i ≤ 0 ∧
    superpose (.wsPow p) t none none amb l i ≤ 0 ∧ superpose (.wsPowLocal p) t none none amb l i ≤ 0 ∧
    superpose .wsMax t none none amb l i ≤ 0 ∧ superpose .tiQuadratic .quadratic none none amb l i ≥ 0 := by
  obtain ⟨-, -, q1, q2, q3, q4, -, q5⟩ := C24_closed_forms t amb l i p
  have hs : ∀ (f : ℝ × ℝ → ℝ), (∀ c, 0 ≤ f c) → 0 ≤ ((hits l i).map f).sum := by
    intro f hf; apply List.sum_nonneg; intro x hx; obtain ⟨c, _, rfl⟩ := List.mem_map.1 hx; exact hf c
  have h3 := hs (fun c => |c.1 * c.2| ^ p) (fun c => by positivity)
  have h4 := hs (fun c => |c.2| ^ p) (fun c => by positivity)
  have h5 := hs (fun c => c.2 ^ 2) (fun c => by positivity)
  refine ⟨?_, ?_, ?_, ?_, (C24_max_form t amb l i).1, ?_⟩
  · rw [q1]; simpa using Real.sqrt_nonneg _
  · rw [q2]; have := mul_nonneg (Real.sqrt_nonneg ((hits l i).map fun c => c.2 ^ 2).sum) (ha i); linarith
  · rw [q3]; simpa using Real.rpow_nonneg h3 _
  · rw [q4]; have := mul_nonneg (Real.rpow_nonneg h4 (1 / p)) (ha i); linarith
  · rw [q5]
    have : amb i ≤ √(((hits l i).map fun c => c.2 ^ 2).sum + amb i ^ 2) := by
      apply Real.le_sqrt_of_sq_le; linarith
    linarith

/-- a non-trivial case for the hypotheses: two wakes, three targets, the third unwaked -/
example : superposeProduct none none (fun _ : Fin 3 => 10)
    [⟨8, fun i => if i = 0 then some (-1 / 2) else none⟩, ⟨7, fun i => if i = 1 then some (-1 / 4) else none⟩] 2 = 0 := by
  refine C25_product_unwaked_target_partial _ _ (by simp) ?_ _ (by simp)
  intro i c hc
  have : i = 0 ∨ i = 1 ∨ i = 2 := by omega
  rcases this with rfl | rfl | rfl <;> simp [hits] at hc <;> rw [hc] <;> norm_num

example := C25_limits (ι := Unit) .wsLinear rfl .linear (some 0) none (fun _ => 8) [⟨8, fun _ => some (-2)⟩] () _ (Or.inl rfl)

end Foxes.Props.Superposition
