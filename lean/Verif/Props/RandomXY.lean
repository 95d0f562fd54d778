import Verif.Model.RandomXY
import Mathlib.Tactic.Linarith
import Mathlib.Tactic.NormNum
import Mathlib.Tactic.Ring
import Mathlib.Tactic.FieldSimp
import Mathlib.Tactic.Positivity
/-
C46: random layouts keep the minimal distance.
-/
namespace Foxes.Props.RandomXY
open Foxes.RandomXY

noncomputable section
open scoped Classical

lemma assign_length (xy : List (ℝ × ℝ)) (is : List ℕ) (ps : List (ℝ × ℝ)) : (assign xy is ps).length = xy.length := by
  induction is generalizing xy ps with
  | nil => cases ps <;> rfl
  | cons i is ih =>
    cases ps with
    | nil => rfl
    | cons p ps => rw [assign, ih]; simp

lemma assign_other (xy : List (ℝ × ℝ)) (is : List ℕ) (ps : List (ℝ × ℝ)) (j : ℕ) (hj : j ∉ is) : (assign xy is ps)[j]? = xy[j]? := by
  induction is generalizing xy ps with
  | nil => cases ps <;> rfl
  | cons i is ih =>
    cases ps with
    | nil => rfl
    | cons p ps =>
      rw [assign, ih _ _ (fun h => hj (by simp [h])), List.getElem?_set_ne]
      rintro rfl; exact hj (by simp)

lemma assign_at (xy : List (ℝ × ℝ)) (is : List ℕ) (ps : List (ℝ × ℝ)) (hl : ps.length = is.length) (hn : is.Nodup) (hb : ∀ i ∈ is, i < xy.length)
    (k : ℕ) (i : ℕ) (hi : is[k]? = some i) : (assign xy is ps)[i]? = ps[k]? := by
  induction is generalizing xy ps k with
  | nil => simp at hi
  | cons a is ih =>
    cases ps with
    | nil => simp at hl
    | cons p ps =>
      rw [assign]
      cases k with
      | zero =>
        simp only [List.getElem?_cons_zero, Option.some.injEq] at hi
        subst hi
        rw [assign_other _ _ _ _ (List.nodup_cons.1 hn).1]
        simp [hb a (by simp)]
      | succ k =>
        simp only [List.getElem?_cons_succ] at hi ⊢
        exact ih _ _ (by simpa using hl) (List.nodup_cons.1 hn).2 (by intro i hi; simp only [List.length_set]; exact hb i (by simp [hi])) k hi

lemma assign_mem (xy : List (ℝ × ℝ)) (is : List ℕ) (ps : List (ℝ × ℝ)) (q : ℝ × ℝ) (h : q ∈ assign xy is ps) : q ∈ xy ∨ q ∈ ps := by
  induction is generalizing xy ps with
  | nil => cases ps <;> exact Or.inl h
  | cons i is ih =>
    cases ps with
    | nil => exact Or.inl h
    | cons p ps =>
      rw [assign] at h
      rcases ih _ _ h with h | h
      · rcases List.mem_or_eq_of_mem_set h with h | rfl
        · exact Or.inl h
        · exact Or.inr (by simp)
      · exact Or.inr (by simp [h])

lemma sel_nil_iff (d : ℝ) (xy : List (ℝ × ℝ)) :
    sel d xy = [] ↔ ∀ (i j : ℕ) p q, i ≠ j → xy[i]? = some p → xy[j]? = some q → d ≤ pdist p q := by
  unfold sel
  rw [List.filter_eq_nil_iff]
  constructor
  · intro h i j p q hij hp hq
    by_contra hd
    rw [not_le] at hd
    have hi : i < xy.length := (List.getElem?_eq_some_iff.1 hp).1
    have := h i (List.mem_range.2 hi)
    apply this
    simp only [decide_eq_true_eq]
    exact ⟨j, Ne.symm hij, p, q, hp, hq, hd⟩
  · intro h i hi
    simp only [decide_eq_true_eq]
    rintro ⟨j, hj, p, q, hp, hq, hd⟩
    exact absurd hd (not_lt.2 (h i j p q (Ne.symm hj) hp hq))

/-- the square of the points -/
def InSquare (x : ℝ) (xy : List (ℝ × ℝ)) : Prop := ∀ p ∈ xy, 0 ≤ p.1 ∧ p.1 ≤ x ∧ 0 ≤ p.2 ∧ p.2 ≤ x

lemma loop_spec {σ : Type} (g : Rng σ) (hg : g.Ok) (d growth : ℝ) (hgr : 1 ≤ growth) (fuel : ℕ) (xy : List (ℝ × ℝ)) (xmax : ℝ) (s : σ) (hx : 0 ≤ xmax) (hsq : InSquare xmax xy)
    (out : List (ℝ × ℝ)) (x' : ℝ) (s' : σ) (h : loop g d growth fuel xy xmax s = some (out, x', s')) :
    out.length = xy.length ∧ sel d out = [] ∧ InSquare x' out ∧ ∃ k, k < fuel ∧ x' = xmax * growth ^ k := by
  induction fuel generalizing xy xmax s with
  | zero => cases h
  | succ fuel ih =>
    rw [loop] at h
    split_ifs at h with hs
    · simp only [Option.some.injEq, Prod.mk.injEq] at h
      obtain ⟨rfl, rfl, rfl⟩ := h
      exact ⟨rfl, hs, hsq, 0, by omega, by simp⟩
    · simp only at h
      have hx' : 0 ≤ xmax * growth := by positivity
      obtain ⟨h1, h2, h3, k, hk, h4⟩ := ih _ _ _ hx' (by
        intro p hp
        rcases assign_mem _ _ _ _ hp with hp | hp
        · obtain ⟨a, b, c, e⟩ := hsq p hp
          have : xmax ≤ xmax * growth := by nlinarith
          exact ⟨a, by linarith, c, by linarith⟩
        · exact (hg _ _ _).2 hx' p hp) h
      refine ⟨by rw [h1, assign_length], h2, h3, k + 1, by omega, ?_⟩
      rw [h4]; ring

lemma loop_dist {σ : Type} (g : Rng σ) (d growth : ℝ) (fuel : ℕ) (xy : List (ℝ × ℝ)) (xmax : ℝ) (s : σ)
    (out : List (ℝ × ℝ)) (x' : ℝ) (s' : σ) (h : loop g d growth fuel xy xmax s = some (out, x', s')) :
    out.length = xy.length ∧ sel d out = [] := by
  induction fuel generalizing xy xmax s with
  | zero => cases h
  | succ fuel ih =>
    rw [loop] at h
    split_ifs at h with hs
    · simp only [Option.some.injEq, Prod.mk.injEq] at h
      obtain ⟨rfl, rfl, rfl⟩ := h
      exact ⟨rfl, hs⟩
    · obtain ⟨h1, h2⟩ := ih _ _ _ h
      exact ⟨by rw [h1, assign_length], h2⟩

lemma dist_shift (p q c : ℝ × ℝ) : pdist (p.1 - c.1, p.2 - c.2) (q.1 - c.1, q.2 - c.2) = pdist p q := by
  unfold pdist; congr 1; ring

lemma sum_shift (l : List (ℝ × ℝ)) (f : ℝ × ℝ → ℝ) (c : ℝ) : (l.map (fun p => f p - c)).sum = (l.map f).sum - l.length * c := by
  induction l with
  | nil => simp
  | cons a l ih => simp only [List.map_cons, List.sum_cons, ih, List.length_cons]; push_cast; ring

/-- **C46.** For every generator that returns as many points as asked for, every seed, start size, growth and number of passes: if a layout is
returned, it has `n` points, no two of them closer than `min_dist`, and their mean is the origin. -/
theorem C46_min_dist {σ : Type} (g : Rng σ) (hg : ∀ s x k, (g.draw s x k).1.length = k) (n : ℕ) (d : ℝ) (xi : Option ℝ) (growth : ℝ) (seed : Option ℕ) (fuel : ℕ) (s : σ)
    (out : List (ℝ × ℝ)) (h : randomXY g n d xi growth seed fuel s = some out) :
    out.length = n ∧
    (∀ (i j : ℕ) p q, i ≠ j → out[i]? = some p → out[j]? = some q → d ≤ Real.sqrt ((p.1 - q.1) ^ 2 + (p.2 - q.2) ^ 2)) ∧
    (out.map Prod.fst).sum = 0 ∧ (out.map Prod.snd).sum = 0 := by
  unfold randomXY at h
  simp only [Option.map_eq_some_iff] at h
  obtain ⟨⟨xy, x', s'⟩, hl, rfl⟩ := h
  obtain ⟨h1, h2⟩ := loop_dist _ _ _ _ _ _ _ _ _ _ hl
  simp only
  refine ⟨by rw [List.length_map, h1, hg], ?_, ?_, ?_⟩
  · intro i j p q hij hp hq
    rw [List.getElem?_map, Option.map_eq_some_iff] at hp hq
    obtain ⟨p', hp', rfl⟩ := hp
    obtain ⟨q', hq', rfl⟩ := hq
    have := (sel_nil_iff d xy).1 h2 i j p' q' hij hp' hq'
    rw [← dist_shift p' q' (mean xy)] at this
    exact this
  · rw [List.map_map]
    show (xy.map (fun p => p.1 - (mean xy).1)).sum = 0
    rw [sum_shift xy Prod.fst]
    by_cases h0 : xy = []
    · subst h0; simp
    · have : (xy.length : ℝ) ≠ 0 := by exact_mod_cast (List.length_pos_iff.2 h0).ne'
      unfold mean; field_simp; ring
  · rw [List.map_map]
    show (xy.map (fun p => p.2 - (mean xy).2)).sum = 0
    rw [sum_shift xy Prod.snd]
    by_cases h0 : xy = []
    · subst h0; simp
    · have : (xy.length : ℝ) ≠ 0 := by exact_mod_cast (List.length_pos_iff.2 h0).ne'
      unfold mean; field_simp; ring

/-- **C46 (extent).** With growth at least 1, the points of a returned layout fit in a square of size `xmax * growth ^ k`, with `k` less than the number
of passes. -/
theorem C46_extent {σ : Type} (g : Rng σ) (hg : g.Ok) (n : ℕ) (d : ℝ) (xi : Option ℝ) (growth : ℝ) (seed : Option ℕ) (fuel : ℕ) (s : σ) (hgr : 1 ≤ growth)
    (hx : 0 ≤ xi.getD (Real.sqrt n * d)) (out : List (ℝ × ℝ)) (h : randomXY g n d xi growth seed fuel s = some out) :
    ∃ k < fuel, ∀ p ∈ out, ∀ q ∈ out, |p.1 - q.1| ≤ xi.getD (Real.sqrt n * d) * growth ^ k ∧ |p.2 - q.2| ≤ xi.getD (Real.sqrt n * d) * growth ^ k := by
  unfold randomXY at h
  simp only [Option.map_eq_some_iff] at h
  obtain ⟨⟨xy, x', s'⟩, hl, rfl⟩ := h
  obtain ⟨_, _, h3, k, hk, h4⟩ := loop_spec g hg _ _ hgr _ _ _ _ hx ((hg _ _ _).2 hx) _ _ _ hl
  refine ⟨k, hk, ?_⟩
  intro p hp q hq
  obtain ⟨p', hp', rfl⟩ := List.mem_map.1 hp
  obtain ⟨q', hq', rfl⟩ := List.mem_map.1 hq
  obtain ⟨a1, a2, a3, a4⟩ := h3 p' hp'
  obtain ⟨b1, b2, b3, b4⟩ := h3 q' hq'
  rw [← h4]
  constructor
  · rw [abs_le]; constructor <;> simp only <;> linarith
  · rw [abs_le]; constructor <;> simp only <;> linarith

/-- **C46 (fresh numbers).** Each pass of the loop uses new random numbers: with a generator whose state counts the draws, the square has grown once for each
draw. -/
theorem C46_fresh_draws (g : Rng ℕ) (hg : ∀ s x k, (g.draw s x k).2 = s + 1) (d growth : ℝ) (fuel : ℕ) (xy : List (ℝ × ℝ)) (xmax : ℝ) (s : ℕ) (out : List (ℝ × ℝ)) (x' : ℝ)
    (s' : ℕ) (h : loop g d growth fuel xy xmax s = some (out, x', s')) : ∃ k, s' = s + k ∧ x' = xmax * growth ^ k := by
  induction fuel generalizing xy xmax s with
  | zero => cases h
  | succ fuel ih =>
    rw [loop] at h
    split_ifs at h with hs
    · simp only [Option.some.injEq, Prod.mk.injEq] at h
      obtain ⟨rfl, rfl, rfl⟩ := h
      exact ⟨0, by omega, by simp⟩
    · obtain ⟨k, h1, h2⟩ := ih _ _ _ h
      rw [hg] at h1
      exact ⟨k + 1, by omega, by rw [h2]; ring⟩

lemma loop_mono {σ : Type} (g : Rng σ) (d growth : ℝ) (f f' : ℕ) (hf : f ≤ f') (xy : List (ℝ × ℝ)) (xmax : ℝ) (s : σ) (o : List (ℝ × ℝ) × ℝ × σ)
    (h : loop g d growth f xy xmax s = some o) : loop g d growth f' xy xmax s = some o := by
  induction f generalizing f' xy xmax s with
  | zero => cases h
  | succ f ih =>
    obtain ⟨f', rfl⟩ : ∃ k, f' = k + 1 := ⟨f' - 1, by omega⟩
    rw [loop] at h ⊢
    split_ifs at h ⊢ with hs
    · exact h
    · exact ih f' (by omega) _ _ _ h

/-- **C46 (passes).** The result does not depend on how many passes were allowed. -/
theorem C46_fuel {σ : Type} (g : Rng σ) (n : ℕ) (d : ℝ) (xi : Option ℝ) (growth : ℝ) (seed : Option ℕ) (f f' : ℕ) (s : σ) (o o' : List (ℝ × ℝ))
    (h : randomXY g n d xi growth seed f s = some o) (h' : randomXY g n d xi growth seed f' s = some o') : o = o' := by
  unfold randomXY at h h'
  simp only [Option.map_eq_some_iff] at h h'
  obtain ⟨a, ha, rfl⟩ := h
  obtain ⟨a', ha', rfl⟩ := h'
  have e1 := loop_mono g d growth f (max f f') (le_max_left _ _) _ _ _ _ ha
  have e2 := loop_mono g d growth f' (max f f') (le_max_right _ _) _ _ _ _ ha'
  rw [e1, Option.some.injEq] at e2
  rw [e2]

/-- **C46 (seed).** With a seed other than 0 the result does not depend on what was drawn before. -/
theorem C46_seed_partial {σ : Type} (g : Rng σ) (n : ℕ) (d : ℝ) (xi : Option ℝ) (growth : ℝ) (k : ℕ) (hk : k ≠ 0) (f : ℕ) (s s' : σ) :
    randomXY g n d xi growth (some k) f s = randomXY g n d xi growth (some k) f s' := by
  unfold randomXY seeded
  simp [hk]

/-- **C46 (seed, finding).** The seed 0 is ignored: the result is that without seed, and there are generators for which it depends on what was drawn before. -/
theorem C46_seed_zero :
    (∀ {σ : Type} (g : Rng σ) (n : ℕ) (d : ℝ) (xi : Option ℝ) (growth : ℝ) (f : ℕ) (s : σ), randomXY g n d xi growth (some 0) f s = randomXY g n d xi growth none f s) ∧
    ∃ (g : Rng Bool) (n : ℕ) (d : ℝ), g.Ok ∧ randomXY g n d (some 1) 1 (some 0) 1 true ≠ randomXY g n d (some 1) 1 (some 0) 1 false := by
  refine ⟨fun g n d xi growth f s => rfl, ?_⟩
  let g : Rng Bool := { seed := fun _ => true, draw := fun s x k => (if s then List.replicate k (0, 0) else (List.range k).map (fun i => if i = 0 then (x, 0) else (0, 0)), s) }
  refine ⟨g, 2, 0, ?_, ?_⟩
  · intro s x k
    cases s
    · refine ⟨by simp [g], ?_⟩
      intro hx p hp
      simp only [g, Bool.false_eq_true, if_false] at hp
      obtain ⟨i, _, rfl⟩ := List.mem_map.1 hp
      split_ifs <;> simp [hx]
    · refine ⟨by simp [g], ?_⟩
      intro hx p hp
      simp only [g, if_true] at hp
      rw [List.eq_of_mem_replicate hp]
      simp [hx]
  · have hd : ∀ xy : List (ℝ × ℝ), sel 0 xy = [] := by
      intro xy; rw [sel_nil_iff]; intro i j p q _ _ _; exact Real.sqrt_nonneg _
    intro h
    simp [randomXY, seeded, loop, hd, g, mean, List.range_succ] at h

/-- **C46 (progress).** Once the growth of the square in one pass exceeds `n + 1` times `min_dist`, from every set of points in the square there are possible
numbers which end the loop: the loop cannot get stuck. -/
theorem C46_can_end (d growth xmax : ℝ) (hd : 0 < d) (hx : 0 ≤ xmax) (xy : List (ℝ × ℝ)) (hsq : InSquare xmax xy) (hbig : (xy.length + 1) * d ≤ xmax * growth - xmax) :
    ∃ new : List (ℝ × ℝ), new.length = (sel d xy).length ∧ InSquare (xmax * growth) new ∧ sel d (assign xy (sel d xy) new) = [] := by
  have hsl : (sel d xy).length ≤ xy.length := by
    unfold sel; exact (List.length_filter_le _ _).trans (by simp)
  have hnodup : (sel d xy).Nodup := List.nodup_range.filter _
  have hbound : ∀ i ∈ sel d xy, i < xy.length := fun i hi => List.mem_range.1 (List.mem_filter.1 hi).1
  let new : List (ℝ × ℝ) := (List.range (sel d xy).length).map (fun k : ℕ => (xmax + ((k : ℝ) + 1) * d, (0 : ℝ)))
  have hlen : new.length = (sel d xy).length := by simp [new]
  have hget : ∀ k < (sel d xy).length, new[k]? = some (xmax + ((k : ℝ) + 1) * d, (0 : ℝ)) := by intro k hk; simp [new, hk]
  refine ⟨new, hlen, ?_, ?_⟩
  · intro p hp
    obtain ⟨k, hk, rfl⟩ := List.mem_map.1 hp
    rw [List.mem_range] at hk
    have hk' : ((k : ℝ) + 1) ≤ xy.length := by exact_mod_cast (by omega : k + 1 ≤ xy.length)
    have h1 : ((k : ℝ) + 1) * d ≤ xy.length * d := mul_le_mul_of_nonneg_right hk' hd.le
    have hl0 : (0 : ℝ) ≤ xy.length := by positivity
    have hk0 : (0 : ℝ) ≤ ((k : ℝ) + 1) * d := by positivity
    refine ⟨by simp only; linarith, by simp only; linarith, le_refl _, by simp only; nlinarith⟩
  · rw [sel_nil_iff]
    have hcase : ∀ (i : ℕ) p, (assign xy (sel d xy) new)[i]? = some p →
        (i ∉ sel d xy ∧ xy[i]? = some p) ∨ ∃ k : ℕ, (sel d xy)[k]? = some i ∧ p = (xmax + ((k : ℝ) + 1) * d, 0) := by
      intro i p hp
      by_cases hi : i ∈ sel d xy
      · right
        obtain ⟨k, hk⟩ := List.mem_iff_getElem?.1 hi
        refine ⟨k, hk, ?_⟩
        rw [assign_at xy _ _ hlen hnodup hbound k i hk, hget k (List.getElem?_eq_some_iff.1 hk).1, Option.some.injEq] at hp
        exact hp.symm
      · left
        rw [assign_other _ _ _ _ hi] at hp
        exact ⟨hi, hp⟩
    have habs : ∀ (a b : ℝ × ℝ), d ≤ |a.1 - b.1| → d ≤ pdist a b := by
      intro a b hab
      unfold pdist
      apply Real.le_sqrt_of_sq_le
      have h1 : d ^ 2 ≤ |a.1 - b.1| ^ 2 := pow_le_pow_left₀ hd.le hab 2
      rw [sq_abs] at h1
      have := sq_nonneg (a.2 - b.2)
      linarith
    intro i j p q hij hp hq
    rcases hcase i p hp with ⟨hi, hp'⟩ | ⟨k, hk, rfl⟩ <;> rcases hcase j q hq with ⟨hj, hq'⟩ | ⟨l, hl, rfl⟩
    · by_contra hlt
      apply hi
      unfold sel
      rw [List.mem_filter, List.mem_range]
      refine ⟨(List.getElem?_eq_some_iff.1 hp').1, ?_⟩
      simp only [decide_eq_true_eq]
      exact ⟨j, Ne.symm hij, p, q, hp', hq', not_le.1 hlt⟩
    · have hm := hsq p (List.mem_iff_getElem?.2 ⟨i, hp'⟩)
      apply habs
      have : (0 : ℝ) ≤ (l : ℝ) * d := by positivity
      rw [abs_sub_comm, abs_of_nonneg] <;> simp only <;> nlinarith
    · have hm := hsq q (List.mem_iff_getElem?.2 ⟨j, hq'⟩)
      apply habs
      have : (0 : ℝ) ≤ (k : ℝ) * d := by positivity
      rw [abs_of_nonneg] <;> simp only <;> nlinarith
    · apply habs
      have hkl : k ≠ l := by
        rintro rfl
        rw [hk, Option.some.injEq] at hl
        exact hij hl
      have e : xmax + ((k : ℝ) + 1) * d - (xmax + ((l : ℝ) + 1) * d) = ((k : ℝ) - l) * d := by ring
      simp only [e, abs_mul, abs_of_pos hd]
      have h1 : (1 : ℝ) ≤ |(k : ℝ) - l| := by
        have : (1 : ℤ) ≤ |(k : ℤ) - l| := Int.one_le_abs (by omega)
        exact_mod_cast this
      nlinarith

/-- **C46 (finding).** Starting with size 0 the loop never ends for two or more points. -/
theorem C46_zero_size_never_ends {σ : Type} (g : Rng σ) (hg : g.Ok) (n : ℕ) (hn : 2 ≤ n) (d : ℝ) (hd : 0 < d) (growth : ℝ) (hgr : 1 ≤ growth) (seed : Option ℕ) (fuel : ℕ) (s : σ) :
    randomXY g n d (some 0) growth seed fuel s = none := by
  cases h : randomXY g n d (some 0) growth seed fuel s with
  | none => rfl
  | some out =>
    exfalso
    obtain ⟨h1, h2, _, _⟩ := C46_min_dist g (fun s x k => (hg s x k).1) n d _ growth seed fuel s out h
    obtain ⟨k, _, h3⟩ := C46_extent g hg n d _ growth seed fuel s hgr (by simp) out h
    have p0 := List.getElem?_eq_getElem (l := out) (i := 0) (by omega)
    have p1 := List.getElem?_eq_getElem (l := out) (i := 1) (by omega)
    have hd' := h2 0 1 _ _ (by omega) p0 p1
    obtain ⟨e1, e2⟩ := h3 out[0] (List.getElem_mem _) out[1] (List.getElem_mem _)
    simp only [Option.getD_some, zero_mul, abs_nonpos_iff] at e1 e2
    rw [e1, e2] at hd'
    norm_num at hd'
    linarith

/-- **C46 (layout).** The turbines of `add_random` keep the minimal distance and have the given centre as mean. -/
theorem C46_add_random {σ : Type} (g : Rng σ) (hg : ∀ s x k, (g.draw s x k).1.length = k) (n : ℕ) (hn : 0 < n) (d : ℝ) (c : ℝ × ℝ) (seed : Option ℕ) (fuel : ℕ) (s : σ)
    (out : List (ℝ × ℝ)) (h : addRandomXY g n d c seed fuel s = some out) :
    out.length = n ∧ (∀ (i j : ℕ) p q, i ≠ j → out[i]? = some p → out[j]? = some q → d ≤ Real.sqrt ((p.1 - q.1) ^ 2 + (p.2 - q.2) ^ 2)) ∧
    (out.map Prod.fst).sum / n = c.1 ∧ (out.map Prod.snd).sum / n = c.2 := by
  unfold addRandomXY at h
  rw [Option.map_eq_some_iff] at h
  obtain ⟨xy, hxy, rfl⟩ := h
  obtain ⟨h1, h2, h3, h4⟩ := C46_min_dist g hg n d _ _ seed fuel s xy hxy
  have hn' : (n : ℝ) ≠ 0 := by exact_mod_cast hn.ne'
  refine ⟨by simpa using h1, ?_, ?_, ?_⟩
  · intro i j p q hij hp hq
    rw [List.getElem?_map, Option.map_eq_some_iff] at hp hq
    obtain ⟨p', hp', rfl⟩ := hp
    obtain ⟨q', hq', rfl⟩ := hq
    have := h2 i j p' q' hij hp' hq'
    simpa using this
  · rw [List.map_map]
    have e : (xy.map (Prod.fst ∘ fun p : ℝ × ℝ => (p.1 + c.1, p.2 + c.2))).sum = (xy.map (fun p => p.1 - (-c.1))).sum := by
      congr 1; apply List.map_congr_left; intro p _; simp
    rw [e, sum_shift xy Prod.fst, h3, h1]; field_simp; ring
  · rw [List.map_map]
    have e : (xy.map (Prod.snd ∘ fun p : ℝ × ℝ => (p.1 + c.1, p.2 + c.2))).sum = (xy.map (fun p => p.2 - (-c.2))).sum := by
      congr 1; apply List.map_congr_left; intro p _; simp
    rw [e, sum_shift xy Prod.snd, h4, h1]; field_simp; ring

/- concrete cases: a generator that spreads the points along the diagonal, and a layout of two points -/
def spread : Rng Unit := { seed := fun _ => (), draw := fun _ x k => ((List.range k).map (fun i : ℕ => (x * i / k, x * i / k)), ()) }
example : spread.Ok := by
  intro s x k
  refine ⟨by simp [spread], ?_⟩
  intro hx p hp
  obtain ⟨i, hi, rfl⟩ := List.mem_map.1 hp
  rw [List.mem_range] at hi
  have hk : (0 : ℝ) < k := by exact_mod_cast (by omega : 0 < k)
  have hik : (i : ℝ) ≤ k := by exact_mod_cast hi.le
  have h1 : x * i / k ≤ x := by rw [div_le_iff₀ hk]; exact mul_le_mul_of_nonneg_left hik hx
  have h2 : 0 ≤ x * i / k := by positivity
  exact ⟨h2, h1, h2, h1⟩
example : ∃ out, randomXY spread 2 1 (some 4) 1 none 1 () = some out := by
  have hs : sel 1 [((0 : ℝ), (0 : ℝ)), (2, 2)] = [] := by
    rw [sel_nil_iff]
    intro i j p q hij hp hq
    have hi : i < 2 := (List.getElem?_eq_some_iff.1 hp).1
    have hj : j < 2 := (List.getElem?_eq_some_iff.1 hq).1
    have : (i = 0 ∧ j = 1) ∨ (i = 1 ∧ j = 0) := by omega
    rcases this with ⟨rfl, rfl⟩ | ⟨rfl, rfl⟩ <;> simp at hp hq <;> subst hp <;> subst hq <;> unfold pdist <;>
      (apply Real.le_sqrt_of_sq_le; norm_num)
  have hd : (spread.draw () 4 2).1 = [((0 : ℝ), (0 : ℝ)), (2, 2)] := by
    simp [spread, List.range_succ]; norm_num
  unfold randomXY
  simp only [seeded, Option.getD_some, hd, loop, hs, if_true, Option.map_some]
  exact ⟨_, rfl⟩

end

end Foxes.Props.RandomXY
