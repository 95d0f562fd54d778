import Mathlib.Tactic.Linarith
import Mathlib.Tactic.Positivity
import Mathlib.Tactic.NormNum
import Mathlib.Tactic.Ring
import Mathlib.Tactic.FieldSimp
import Mathlib.Tactic.ByContra
import Mathlib.Analysis.Convex.Segment
import Mathlib.Order.Bounds.Basic
import Mathlib.Analysis.Complex.Basic
import Verif.Model.Geom2d
/-
C37: area geometries.
-/
namespace Foxes.Props.Geom2d

open Foxes.Geom2d
noncomputable section
open scoped Classical

/-! ### Set algebra -/

/-- `p` is on the edge of the half plane `g`. -/
def OnEdge (g : Geom) (p : ℂ) : Prop := ∃ c n, g = .half c n ∧ dot (p - c) n = 0

lemma insideAny_iff (gs : List Geom) (p : ℂ) : insideAny gs p = true ↔ ∃ g ∈ gs, inside g p = true := by
  induction gs with
  | nil => simp [insideAny]
  | cons g gs ih => simp [insideAny, ih]

lemma inside_union (gs : List Geom) (p : ℂ) : inside (.union gs) p = true ↔ ∃ g ∈ gs, inside g p = true := by
  rw [inside, insideAny_iff]

lemma dot_div (a n : ℂ) (r : ℝ) : dot a (n / r) = dot a n / r := by
  unfold dot
  rw [Complex.div_ofReal_re, Complex.div_ofReal_im]; ring

lemma dot_neg (a n : ℂ) : dot a (-n) = -dot a n := by unfold dot; simp; ring

lemma dot_self (n : ℂ) : dot n n = ‖n‖ ^ 2 := by
  unfold dot; rw [← Complex.normSq_eq_norm_sq, Complex.normSq_apply]

lemma dot_zero_of_norm (a n : ℂ) (h : ‖n‖ = 0) : dot a n = 0 := by
  rw [norm_eq_zero.1 h]; simp [dot]

/-- **C37 (circle).** The points of a circle are those within the radius, edge included. -/
theorem C37_circle (c : ℂ) (r : ℝ) (p : ℂ) : inside (.circle c r) p = true ↔ ‖p - c‖ ≤ r := by
  simp [inside]

/-- **C37 (half plane).** The half plane is the set of points on the side of its line to which the given vector points. -/
theorem C37_half_plane (c n p : ℂ) : inside (halfPlane c n) p = true ↔ 0 ≤ (p - c).re * n.re + (p - c).im * n.im := by
  unfold halfPlane inside
  rw [decide_eq_true_eq, dot_div]
  by_cases h : ‖n‖ = 0
  · have := dot_zero_of_norm (p - c) n h
    unfold dot at this
    rw [h, div_zero, this]
  · have hp : 0 < ‖n‖ := lt_of_le_of_ne (norm_nonneg _) (Ne.symm h)
    unfold dot
    rw [ge_iff_le, le_div_iff₀ hp, zero_mul]

lemma inside_inverse (g : Geom) (p : ℂ) (h : ¬ OnEdge g p) : inside (inverse g) p = !inside g p := by
  cases g with
  | circle c r => rfl
  | poly pts f => rfl
  | union gs => rfl
  | inv g => simp [inverse, inside]
  | half c n =>
    have hne : dot (p - c) n ≠ 0 := fun e => h ⟨c, n, rfl, e⟩
    have h1 := C37_half_plane c (-n) p
    simp only [inverse]
    rw [Bool.eq_iff_iff, h1]
    simp only [inside, Bool.not_eq_true', decide_eq_false_iff_not, not_le, ge_iff_le]
    simp only [Complex.neg_re, Complex.neg_im]
    unfold dot at hne ⊢
    constructor
    · intro h2; exact lt_of_le_of_ne (by linarith) hne
    · intro h2; linarith

/-- **C37 (complement).** The inverse contains exactly the points outside, except for the edge of a half plane ... -/
theorem C37_inverse_partial (g : Geom) (p : ℂ) (h : ¬ OnEdge g p) : inside (inverse g) p = true ↔ ¬ inside g p = true := by
  rw [inside_inverse g p h]; simp

/-- **C37 (finding).** ... which is inside of both. -/
theorem C37_edge_in_both (g : Geom) (p : ℂ) (h : OnEdge g p) : inside g p = true ∧ inside (inverse g) p = true := by
  obtain ⟨c, n, rfl, h⟩ := h
  constructor
  · simp [inside, h]
  · rw [inverse, C37_half_plane]
    unfold dot at h
    simp only [Complex.neg_re, Complex.neg_im]; linarith

/-- **C37 (union).** `g + h` contains the points of `g` and of `h`. -/
theorem C37_union (g h : Geom) (p : ℂ) : inside (add g h) p = true ↔ inside g p = true ∨ inside h p = true := by
  cases g <;> cases h <;> simp only [add, inside_union] <;> simp [or_and_right, exists_or]

/-- Half planes have a normalised vector (the constructor takes care of it). -/
def Normalised (g : Geom) : Prop := ∀ c n, g = .half c n → ‖n‖ = 1

lemma double_inverse_inside (g : Geom) (p : ℂ) (hg : Normalised g) (h : ∀ c n, g ≠ .inv (.half c n)) :
    inside (inverse (inverse g)) p = inside g p := by
  cases g with
  | circle c r => rfl
  | poly pts f => rfl
  | union gs => rfl
  | half c n =>
    have h1 := hg c n rfl
    simp only [inverse, halfPlane, norm_neg, h1, Complex.ofReal_one, div_one, neg_neg]
  | inv g =>
    cases g with
    | half c n => exact absurd rfl (h c n)
    | inv g => simp [inverse, inside]
    | circle c r => rfl
    | poly pts f => rfl
    | union gs => rfl

/-- **C37 (double inverse).** Inverting twice gives the same set. (`InvertedAreaGeometry(HalfPlane)`, which no operation creates, is
excluded.) -/
theorem C37_double_inverse (g : Geom) (p : ℂ) (hg : Normalised g) (h : ∀ c n, g ≠ .inv (.half c n)) :
    inside (inverse (inverse g)) p = true ↔ inside g p = true := by
  rw [double_inverse_inside g p hg h]

lemma inside_inter (gs : List Geom) (p : ℂ) : inside (inter gs) p = true ↔ ∀ g ∈ gs, ¬ inside (inverse g) p = true := by
  unfold inter
  have h : ¬ OnEdge (.union (gs.map inverse)) p := by rintro ⟨c, n, h, _⟩; cases h
  rw [C37_inverse_partial _ _ h, inside_union]
  simp

/-- **C37 (intersection).** The intersection contains the points that all members contain (except for edges of half planes). -/
theorem C37_intersection_partial (gs : List Geom) (p : ℂ) (h : ∀ g ∈ gs, ¬ OnEdge g p) :
    inside (inter gs) p = true ↔ ∀ g ∈ gs, inside g p = true := by
  rw [inside_inter]
  refine forall₂_congr fun g hg => ?_
  rw [C37_inverse_partial g p (h g hg), not_not]

/-- **C37 (finding).** The intersection of half planes does not contain their edges, although each half plane does. -/
theorem C37_intersection_without_edges (gs : List Geom) (p : ℂ) (g : Geom) (hg : g ∈ gs) (h : OnEdge g p) : inside (inter gs) p = false := by
  rw [← Bool.not_eq_true, inside_inter]
  intro hall
  exact hall g hg (C37_edge_in_both g p h).2

/-- **C37 (difference).** `g - h` contains the points of `g` that are not in `h` (except for the edge of `g`). -/
theorem C37_difference (g h : Geom) (p : ℂ) (hp : ¬ OnEdge g p) (hh : Normalised h) (hi : ∀ c n, h ≠ .inv (.half c n)) :
    inside (sub g h) p = true ↔ inside g p = true ∧ ¬ inside h p = true := by
  unfold sub
  rw [inside_inter]
  simp only [List.mem_cons, List.not_mem_nil, or_false, forall_eq_or_imp, forall_eq]
  rw [C37_inverse_partial g p hp, not_not, C37_double_inverse h p hh hi]

/-- **C37 (De Morgan).** The inverse of a union is the intersection of the inverses, at every point. -/
theorem C37_de_morgan (gs : List Geom) (p : ℂ) (hn : ∀ g ∈ gs, Normalised g) (hi : ∀ g ∈ gs, ∀ c n, g ≠ .inv (.half c n)) :
    inside (inverse (.union gs)) p = true ↔ inside (inter (gs.map inverse)) p = true := by
  have h : ¬ OnEdge (.union gs) p := by rintro ⟨c, n, h, _⟩; cases h
  rw [C37_inverse_partial _ _ h, inside_union, inside_inter]
  simp only [List.mem_map, forall_exists_index, and_imp, forall_apply_eq_imp_iff₂, not_exists, not_and]
  refine forall₂_congr fun g hg => ?_
  rw [C37_double_inverse g p (hn g hg) (hi g hg)]

/-! ### Distances of the basic shapes -/

/-- `d` is the smallest distance from `p` to a point of `S`. -/
def IsDist (S : Set ℂ) (p : ℂ) (d : EReal) : Prop := ∃ r : ℝ, d = r ∧ IsLeast ((fun q => ‖p - q‖) '' S) r

/-- **C37 (circle distance).** -/
theorem C37_circle_distance (c : ℂ) (r : ℝ) (hr : 0 ≤ r) (p : ℂ) :
    IsDist {q | ‖q - c‖ = r} p (pd (.circle c r) p).1 ∧
    (p ≠ c → ‖(pd (.circle c r) p).2 - c‖ = r ∧ (pd (.circle c r) p).1 = (‖p - (pd (.circle c r) p).2‖ : ℝ)) := by
  have hnear : p ≠ c → ‖c + (p - c) / ‖p - c‖ * r - c‖ = r ∧ ‖p - (c + (p - c) / ‖p - c‖ * r)‖ = |‖p - c‖ - r| := by
    intro hpc
    have hn : 0 < ‖p - c‖ := norm_pos_iff.2 (sub_ne_zero.2 hpc)
    constructor
    · rw [add_sub_cancel_left, norm_mul, norm_div, Complex.norm_real, Complex.norm_real, norm_norm, div_self hn.ne', one_mul,
        Real.norm_of_nonneg hr]
    · have e : p - (c + (p - c) / ‖p - c‖ * r) = (p - c) * (((‖p - c‖ - r) / ‖p - c‖ : ℝ) : ℂ) := by
        have : ((‖p - c‖ : ℝ) : ℂ) ≠ 0 := by exact_mod_cast hn.ne'
        push_cast; field_simp; ring
      rw [e, norm_mul, Complex.norm_real, Real.norm_eq_abs, abs_div, abs_of_pos hn]
      field_simp
  simp only [pd]
  refine ⟨⟨_, rfl, ?_, ?_⟩, ?_⟩
  · by_cases hpc : p = c
    · refine ⟨c + r, ?_, ?_⟩
      · simp [abs_of_nonneg hr]
      · simp [hpc]
    · exact ⟨_, (hnear hpc).1, (hnear hpc).2⟩
  · rintro x ⟨q, hq, rfl⟩
    simp only [Set.mem_ofPred_eq] at hq
    rw [← hq]
    have := abs_norm_sub_norm_le (p - c) (q - c)
    simpa using this
  · intro hpc
    exact ⟨(hnear hpc).1, by rw [(hnear hpc).2]⟩

/-- the distance to a line through `c` -/
lemma perp (c n p : ℂ) (hn : ‖n‖ = 1) (q : ℂ) (hq : dot (q - c) n = 0) : |dot (p - c) n| ≤ ‖p - q‖ := by
  have e : dot (p - c) n = dot (p - q) n := by
    unfold dot at hq ⊢
    simp only [Complex.sub_re, Complex.sub_im] at hq ⊢
    linarith
  rw [e]
  have h1 : (dot (p - q) n) ^ 2 ≤ ‖p - q‖ ^ 2 := by
    have h2 := dot_self n
    rw [hn] at h2
    rw [← dot_self]
    unfold dot at h2 ⊢
    nlinarith [sq_nonneg ((p - q).re * n.im - (p - q).im * n.re)]
  rw [← sq_abs] at h1
  exact (sq_le_sq₀ (abs_nonneg _) (norm_nonneg _)).1 h1

/-- **C37 (half plane distance).** The distance and the nearest point of the line. -/
theorem C37_half_plane_distance (c n p : ℂ) (hn : ‖n‖ = 1) :
    IsDist {q | dot (q - c) n = 0} p (pd (.half c n) p).1 ∧
    dot ((pd (.half c n) p).2 - c) n = 0 ∧ (pd (.half c n) p).1 = (‖p - (pd (.half c n) p).2‖ : ℝ) := by
  have h2 := dot_self n
  rw [hn] at h2
  have hon : dot ((pd (.half c n) p).2 - c) n = 0 := by
    simp only [pd, add_sub_cancel_left]
    unfold dot
    simp [Complex.mul_re, Complex.mul_im]
    ring
  have hdist : ‖p - (pd (.half c n) p).2‖ = |dot (p - c) n| := by
    rw [← sq_eq_sq₀ (norm_nonneg _) (abs_nonneg _), sq_abs, ← dot_self]
    simp only [pd]
    unfold dot at h2 ⊢
    simp only [Complex.sub_re, Complex.sub_im, Complex.add_re, Complex.add_im, Complex.mul_re, Complex.mul_im, Complex.ofReal_re,
      Complex.ofReal_im, zero_mul, sub_zero, add_zero]
    generalize n.re = a at *
    generalize n.im = b at *
    generalize hu : p.re - c.re = u
    generalize hv : p.im - c.im = v
    have e1 : p.re - (c.re + (u * -b + v * a) * -b) = a * (u * a + v * b) := by
      have : p.re = u + c.re := by linarith
      rw [this]; linear_combination u * h2 * (-1 : ℝ)
    have e2 : p.im - (c.im + (u * -b + v * a) * a) = b * (u * a + v * b) := by
      have : p.im = v + c.im := by linarith
      rw [this]; linear_combination v * h2 * (-1 : ℝ)
    rw [e1, e2]
    linear_combination (u * a + v * b) ^ 2 * h2
  have hfst : (pd (.half c n) p).1 = ((|dot (p - c) n| : ℝ) : EReal) := rfl
  refine ⟨⟨|dot (p - c) n|, hfst, ⟨_, hon, hdist⟩, ?_⟩, hon, by rw [hfst, hdist]⟩
  rintro x ⟨q, hq, rfl⟩
  exact perp c n p hn q hq

/-! ### Polygons -/

/-- The boundary of a polygon: all points of its edges. -/
def boundary (pts : List ℂ) : Set ℂ := {q | ∃ e ∈ edges (closed pts), q ∈ segment ℝ e.1 e.2}

lemma norm_sq_perp (u n : ℂ) (hn : ‖n‖ = 1) (s : ℝ) : ‖u - s * n‖ ^ 2 = (dot u n - s) ^ 2 + (‖u‖ ^ 2 - dot u n ^ 2) := by
  have h2 := dot_self n
  rw [hn] at h2
  rw [← dot_self, ← dot_self]
  unfold dot at *
  simp only [Complex.sub_re, Complex.sub_im, Complex.mul_re, Complex.mul_im, Complex.ofReal_re, Complex.ofReal_im, zero_mul, sub_zero, add_zero]
  linear_combination s ^ 2 * h2

lemma dot_le (u n : ℂ) (hn : ‖n‖ = 1) : 0 ≤ ‖u‖ ^ 2 - dot u n ^ 2 := by
  have := norm_sq_perp u n hn (dot u n)
  rw [sub_self] at this
  have h := sq_nonneg (‖u - dot u n * n‖)
  rw [this] at h; linarith

/-- state of the loop: what is stored is the distance of the stored point, which is on the boundary -/
def Good (B : Set ℂ) (p : ℂ) (s : EReal × ℂ) : Prop := s.1 = ⊤ ∨ (s.2 ∈ B ∧ s.1 = (‖p - s.2‖ : ℝ))

lemma edge_unit (A B : ℂ) (h : 0 < ‖B - A‖) : ‖(B - A) / (‖B - A‖ : ℂ)‖ = 1 := by
  rw [norm_div, Complex.norm_real, norm_norm, div_self h.ne']

lemma edge_point (A B : ℂ) (h : 0 < ‖B - A‖) (s : ℝ) (h0 : 0 ≤ s) (h1 : s ≤ ‖B - A‖) :
    A + s * ((B - A) / (‖B - A‖ : ℂ)) ∈ segment ℝ A B := by
  rw [segment_eq_image']
  refine ⟨s / ‖B - A‖, ⟨by positivity, (div_le_one h).2 h1⟩, ?_⟩
  simp only [Complex.real_smul]; push_cast; ring

lemma edge_good (B : Set ℂ) (p : ℂ) (s : EReal × ℂ) (e : ℂ × ℂ) (hs : Good B p s) (he : segment ℝ e.1 e.2 ⊆ B) : Good B p (edgeStep p s e) := by
  unfold edgeStep
  simp only
  split_ifs with hd hx hy
  · right
    have hu := edge_unit e.1 e.2 hd
    set n := (e.2 - e.1) / (‖e.2 - e.1‖ : ℂ)
    refine ⟨he (edge_point e.1 e.2 hd _ hx.1.le hx.2.le), ?_⟩
    simp only
    congr 1
    have h1 := norm_sq_perp (p - e.1) n hu (dot (p - e.1) n)
    rw [sub_self, zero_pow two_ne_zero, zero_add] at h1
    rw [max_eq_left (dot_le (p - e.1) n hu), ← h1, Real.sqrt_sq (norm_nonneg _), sub_sub]
  · exact hs
  · exact hs
  · exact hs

lemma edge_le (p : ℂ) (s : EReal × ℂ) (e : ℂ × ℂ) : (edgeStep p s e).1 ≤ s.1 := by
  unfold edgeStep
  simp only
  split_ifs with hd hx hy
  · exact hy.le
  all_goals exact le_rfl

/-- after an edge whose end points have been seen, the stored distance is at most that to any point of the edge -/
lemma edge_covers (p : ℂ) (s : EReal × ℂ) (e : ℂ × ℂ) (h1 : s.1 ≤ (‖p - e.1‖ : ℝ)) (h2 : s.1 ≤ (‖p - e.2‖ : ℝ)) (q : ℂ)
    (hq : q ∈ segment ℝ e.1 e.2) : (edgeStep p s e).1 ≤ (‖p - q‖ : ℝ) := by
  by_cases hd : 0 < ‖e.2 - e.1‖
  swap
  · have : e.2 = e.1 := by
      have := norm_le_zero_iff.1 (not_lt.1 hd)
      exact sub_eq_zero.1 this
    rw [this, segment_same, Set.mem_singleton_iff] at hq
    rw [hq]; exact (edge_le p s e).trans h1
  have hu := edge_unit e.1 e.2 hd
  have hqn : ∃ t : ℝ, 0 ≤ t ∧ t ≤ ‖e.2 - e.1‖ ∧ q = e.1 + t * ((e.2 - e.1) / (‖e.2 - e.1‖ : ℂ)) := by
    rw [segment_eq_image'] at hq
    obtain ⟨θ, ⟨t0, t1⟩, rfl⟩ := hq
    refine ⟨θ * ‖e.2 - e.1‖, by positivity, by nlinarith, ?_⟩
    have : ((‖e.2 - e.1‖ : ℝ) : ℂ) ≠ 0 := by exact_mod_cast hd.ne'
    simp only [Complex.real_smul]; push_cast; field_simp
  obtain ⟨t, t0, t1, rfl⟩ := hqn
  set n := (e.2 - e.1) / (‖e.2 - e.1‖ : ℂ) with hn
  set x := dot (p - e.1) n with hx
  have hdist : ‖p - (e.1 + t * n)‖ ^ 2 = (x - t) ^ 2 + (‖p - e.1‖ ^ 2 - x ^ 2) := by
    rw [← norm_sq_perp (p - e.1) n hu t, sub_sub]
  have hperp := dot_le (p - e.1) n hu
  have hB : ‖p - e.2‖ ^ 2 = (x - ‖e.2 - e.1‖) ^ 2 + (‖p - e.1‖ ^ 2 - x ^ 2) := by
    rw [← norm_sq_perp (p - e.1) n hu ‖e.2 - e.1‖]
    congr 2
    have : ((‖e.2 - e.1‖ : ℝ) : ℂ) ≠ 0 := by exact_mod_cast hd.ne'
    rw [hn, mul_div_cancel₀ _ this]; ring
  by_cases hx0 : x ≤ 0
  · refine ((edge_le p s e).trans h1).trans ?_
    rw [EReal.coe_le_coe_iff]
    refine (sq_le_sq₀ (norm_nonneg _) (norm_nonneg _)).1 ?_
    rw [hdist]; nlinarith
  by_cases hx1 : ‖e.2 - e.1‖ ≤ x
  · refine ((edge_le p s e).trans h2).trans ?_
    rw [EReal.coe_le_coe_iff]
    refine (sq_le_sq₀ (norm_nonneg _) (norm_nonneg _)).1 ?_
    rw [hdist, hB]; nlinarith
  · have hy : Real.sqrt (max (‖p - e.1‖ ^ 2 - x ^ 2) 0) ≤ ‖p - (e.1 + t * n)‖ := by
      rw [max_eq_left hperp]
      apply Real.sqrt_le_iff.2
      refine ⟨norm_nonneg _, ?_⟩
      rw [hdist]; nlinarith [sq_nonneg (x - t)]
    have hle : (edgeStep p s e).1 ≤ (Real.sqrt (max (‖p - e.1‖ ^ 2 - x ^ 2) 0) : ℝ) := by
      unfold edgeStep
      simp only
      rw [if_pos hd, if_pos ⟨not_le.1 hx0, not_le.1 hx1⟩]
      split_ifs with h
      · exact le_rfl
      · exact not_lt.1 h
    exact hle.trans (EReal.coe_le_coe_iff.2 hy)

lemma vertices_spec (p : ℂ) (B : Set ℂ) (l : List ℂ) (hB : ∀ v ∈ l, v ∈ B) (s : EReal × ℂ) (hs : Good B p s) :
    Good B p (l.foldl (vertexStep p) s) ∧ (l.foldl (vertexStep p) s).1 ≤ s.1 ∧ ∀ v ∈ l, (l.foldl (vertexStep p) s).1 ≤ (‖p - v‖ : ℝ) := by
  induction l generalizing s with
  | nil => exact ⟨hs, le_rfl, by simp⟩
  | cons v l ih =>
    rw [List.foldl_cons]
    have hg : Good B p (vertexStep p s v) := by
      unfold vertexStep
      split_ifs
      · exact Or.inr ⟨hB v (by simp), rfl⟩
      · exact hs
    have hle : (vertexStep p s v).1 ≤ s.1 ∧ (vertexStep p s v).1 ≤ (‖p - v‖ : ℝ) := by
      unfold vertexStep
      split_ifs with h
      · exact ⟨h.le, le_rfl⟩
      · exact ⟨le_rfl, not_lt.1 h⟩
    obtain ⟨i1, i2, i3⟩ := ih (fun v hv => hB v (by simp [hv])) _ hg
    refine ⟨i1, i2.trans hle.1, ?_⟩
    intro w hw
    rw [List.mem_cons] at hw
    rcases hw with rfl | hw
    · exact i2.trans hle.2
    · exact i3 w hw

lemma edges_spec (p : ℂ) (B : Set ℂ) (l : List (ℂ × ℂ)) (hB : ∀ e ∈ l, segment ℝ e.1 e.2 ⊆ B) (s : EReal × ℂ) (hs : Good B p s)
    (hv : ∀ e ∈ l, s.1 ≤ (‖p - e.1‖ : ℝ) ∧ s.1 ≤ (‖p - e.2‖ : ℝ)) :
    Good B p (l.foldl (edgeStep p) s) ∧ (l.foldl (edgeStep p) s).1 ≤ s.1 ∧
    ∀ e ∈ l, ∀ q ∈ segment ℝ e.1 e.2, (l.foldl (edgeStep p) s).1 ≤ (‖p - q‖ : ℝ) := by
  induction l generalizing s with
  | nil => exact ⟨hs, le_rfl, by simp⟩
  | cons e l ih =>
    rw [List.foldl_cons]
    have hle := edge_le p s e
    obtain ⟨i1, i2, i3⟩ := ih (fun e he => hB e (by simp [he])) _ (edge_good B p s e hs (hB e (by simp)))
      (fun e' he => ⟨hle.trans (hv e' (by simp [he])).1, hle.trans (hv e' (by simp [he])).2⟩)
    refine ⟨i1, i2.trans hle, ?_⟩
    intro e' he q hq
    rw [List.mem_cons] at he
    rcases he with rfl | he
    · exact i2.trans (edge_covers p s e' (hv e' (by simp)).1 (hv e' (by simp)).2 q hq)
    · exact i3 e' he q hq

lemma closed_shape (a : ℂ) (l : List ℂ) : ∃ m, closed (a :: l) = a :: m ∧ (m ≠ [] → m.getLast? = some a) ∧ (l ≠ [] → m ≠ []) := by
  unfold closed
  simp only
  split_ifs with h
  · refine ⟨l, rfl, ?_, fun h => h⟩
    intro hl
    rwa [List.getLast?_cons, List.getLast?_eq_some_getLast hl, Option.getD_some, Option.some.injEq, ← Option.some.injEq,
      ← List.getLast?_eq_some_getLast hl] at h
  · exact ⟨l ++ [a], rfl, fun _ => by simp, fun _ => by simp⟩

lemma mem_edges (l : List ℂ) (e : ℂ × ℂ) (h : e ∈ edges l) : e.1 ∈ l.dropLast ∧ e.2 ∈ l.tail := by
  unfold edges at h
  induction l with
  | nil => simp at h
  | cons a l ih =>
    cases l with
    | nil => simp at h
    | cons b l =>
      simp only [List.tail_cons, List.zip_cons_cons, List.mem_cons] at h
      rcases h with rfl | h
      · simp
      · have := ih (by simpa using h)
        refine ⟨?_, ?_⟩
        · rw [List.dropLast_cons_cons]; exact List.mem_cons_of_mem _ this.1
        · simp only [List.tail_cons] at this ⊢; exact List.mem_cons_of_mem _ this.2

lemma vertex_edge (l : List ℂ) (v : ℂ) (h : v ∈ l.dropLast) : ∃ e ∈ edges l, e.1 = v := by
  unfold edges
  induction l with
  | nil => simp at h
  | cons a l ih =>
    cases l with
    | nil => simp at h
    | cons b l =>
      rw [List.dropLast_cons_cons, List.mem_cons] at h
      rcases h with rfl | h
      · exact ⟨(v, b), by simp, rfl⟩
      · obtain ⟨e, he, hv⟩ := ih h
        exact ⟨e, by simp only [List.tail_cons, List.zip_cons_cons]; exact List.mem_cons_of_mem _ he, hv⟩

lemma tail_mem_dropLast (a : ℂ) (m : List ℂ) (hm : m ≠ [] → m.getLast? = some a) (v : ℂ) (hv : v ∈ m) : v ∈ (a :: m).dropLast := by
  have hne : m ≠ [] := by rintro rfl; simp at hv
  have hlast := hm hne
  have hsplit := List.dropLast_append_getLast hne
  have hl : m.getLast hne = a := by
    rw [List.getLast?_eq_some_getLast hne, Option.some.injEq] at hlast; exact hlast
  rw [List.dropLast_cons_of_ne_nil hne]
  rw [← hsplit, List.mem_append, List.mem_singleton, hl] at hv
  rcases hv with hv | rfl
  · exact List.mem_cons_of_mem _ hv
  · simp

lemma poly_spec (a b : ℂ) (l : List ℂ) (p : ℂ) :
    Good (boundary (a :: b :: l)) p (polyDist (a :: b :: l) p) ∧ (polyDist (a :: b :: l) p).1 ≠ ⊤ ∧
    ∀ q ∈ boundary (a :: b :: l), (polyDist (a :: b :: l) p).1 ≤ (‖p - q‖ : ℝ) := by
  obtain ⟨m, hc, hm, hne⟩ := closed_shape a (b :: l)
  have hne := hne (by simp)
  set pts := a :: b :: l
  set B := boundary pts
  have hseg : ∀ e ∈ edges (closed pts), segment ℝ e.1 e.2 ⊆ B := fun e he q hq => ⟨e, he, hq⟩
  have hv1 : ∀ v ∈ (closed pts).dropLast, v ∈ B := by
    intro v hv
    obtain ⟨e, he, rfl⟩ := vertex_edge _ v hv
    exact hseg e he (left_mem_segment ℝ _ _)
  obtain ⟨g1, _, g3⟩ := vertices_spec p B (closed pts).dropLast hv1 (⊤, 0) (Or.inl rfl)
  have hends : ∀ e ∈ edges (closed pts),
      ((closed pts).dropLast.foldl (vertexStep p) (⊤, 0)).1 ≤ (‖p - e.1‖ : ℝ) ∧
      ((closed pts).dropLast.foldl (vertexStep p) (⊤, 0)).1 ≤ (‖p - e.2‖ : ℝ) := by
    intro e he
    have := mem_edges _ e he
    refine ⟨g3 _ this.1, g3 _ ?_⟩
    rw [hc] at this ⊢
    exact tail_mem_dropLast a m hm _ (by simpa using this.2)
  obtain ⟨e1, e2, e3⟩ := edges_spec p B _ hseg _ g1 hends
  refine ⟨e1, ?_, ?_⟩
  · have ha : a ∈ (closed pts).dropLast := by rw [hc, List.dropLast_cons_of_ne_nil hne]; simp
    have := e2.trans (g3 a ha)
    exact ne_of_lt (lt_of_le_of_lt this (EReal.coe_lt_top _))
  · rintro q ⟨e, he, hq⟩
    exact e3 e he q hq

/-- **C37 (polygon distance).** For a polygon with at least two given vertices, closed or not, the distance is the smallest one to a
point of its edges, and the returned nearest point is on an edge at that distance. -/
theorem C37_polygon_distance (a b : ℂ) (l : List ℂ) (f : ℂ → Bool) (p : ℂ) :
    IsDist (boundary (a :: b :: l)) p (pd (.poly (a :: b :: l) f) p).1 ∧
    (pd (.poly (a :: b :: l) f) p).2 ∈ boundary (a :: b :: l) ∧
    (pd (.poly (a :: b :: l) f) p).1 = (‖p - (pd (.poly (a :: b :: l) f) p).2‖ : ℝ) := by
  obtain ⟨g, hne, hle⟩ := poly_spec a b l p
  simp only [pd]
  rcases g with g | ⟨g1, g2⟩
  · exact absurd g hne
  · refine ⟨⟨_, g2, ⟨_, g1, rfl⟩, ?_⟩, g1, g2⟩
    rintro x ⟨q, hq, rfl⟩
    have := hle q hq
    rw [g2, EReal.coe_le_coe_iff] at this
    exact this

/-! ### Distances of composed geometries -/

mutual
/-- All polygons in the geometry have at least two vertices, and which points they contain changes only when their boundary is crossed; all
half planes are normalised, circles have non-negative radius. -/
def Sound : Geom → Prop
  | .circle _ r => 0 ≤ r
  | .half _ n => ‖n‖ = 1
  | .poly pts f => 2 ≤ pts.length ∧ ∀ p q, (∀ r ∈ segment ℝ p q, r ∉ boundary pts) → f p = f q
  | .inv g => Sound g
  | .union gs => SoundAll gs
/-- all members are sound -/
def SoundAll : List Geom → Prop
  | [] => True
  | g :: gs => Sound g ∧ SoundAll gs
end

/-- moving `p` by less than `d` does not change membership in `S` -/
def Clear (S : ℂ → Bool) (p : ℂ) (d : EReal) : Prop := ∀ q, ((‖p - q‖ : ℝ) : EReal) < d → S q = S p

lemma ustep_clear (S T : ℂ → Bool) (p : ℂ) (s : U) (d : EReal) (near : ℂ) (hp : s.pin = S p) (hs : Clear S p s.d) (hd : Clear T p d) :
    (ustep s d near (T p)).pin = (S p || T p) ∧ Clear (fun q => S q || T q) p (ustep s d near (T p)).d := by
  obtain ⟨sd, sn, sp⟩ := s
  simp only at hp hs
  subst hp
  rcases hS : S p with _ | _ <;> rcases hT : T p with _ | _ <;> simp only [ustep]
  · by_cases h : d < sd
    · refine ⟨by simp [h], ?_⟩
      intro q hq
      simp [h] at hq
      simp [hd q hq, hs q (hq.trans h), hS, hT]
    · refine ⟨by simp [h], ?_⟩
      intro q hq
      simp [h] at hq
      simp [hs q hq, hd q (lt_of_lt_of_le hq (not_lt.1 h)), hS, hT]
  · refine ⟨by simp, ?_⟩
    intro q hq
    simp at hq
    simp [hd q hq, hT]
  · refine ⟨by simp, ?_⟩
    intro q hq
    simp at hq
    simp [hs q hq, hS]
  · by_cases h : sd < d
    · refine ⟨by simp [h], ?_⟩
      intro q hq
      simp [h] at hq
      simp [hd q hq, hT]
    · refine ⟨by simp [h], ?_⟩
      intro q hq
      simp [h] at hq
      simp [hs q hq, hS]

lemma clear_of_dist (S : Set ℂ) (T : ℂ → Bool) (p : ℂ) (d : EReal) (h : IsDist S p d)
    (hT : ∀ p q, (∀ r ∈ segment ℝ p q, r ∉ S) → T p = T q) : Clear T p d := by
  intro q hq
  obtain ⟨r, rfl, hr⟩ := h
  rw [EReal.coe_lt_coe_iff] at hq
  refine (hT p q ?_).symm
  intro x hx hxS
  have h1 : r ≤ ‖p - x‖ := hr.2 ⟨x, hxS, rfl⟩
  have h2 : ‖p - x‖ ≤ ‖p - q‖ := by
    rw [segment_eq_image'] at hx
    obtain ⟨t, ⟨t0, t1⟩, rfl⟩ := hx
    have : p - (p + t • (q - p)) = t • (p - q) := by simp only [Complex.real_smul]; ring
    rw [this, norm_smul, Real.norm_of_nonneg t0]
    nlinarith [norm_nonneg (p - q)]
  linarith

mutual
lemma clear_pd (g : Geom) (p : ℂ) (h : Sound g) : Clear (inside g) p (pd g p).1 := by
  match g, h with
  | .circle c r, h =>
    intro q hq
    simp only [pd, EReal.coe_lt_coe_iff] at hq
    simp only [inside]
    have h1 := abs_norm_sub_norm_le (p - c) (q - c)
    have h2 : ‖p - c - (q - c)‖ = ‖p - q‖ := by congr 1; ring
    rw [h2] at h1
    rw [decide_eq_decide]
    rcases abs_cases (‖p - c‖ - r) with ⟨e, _⟩ | ⟨e, _⟩ <;> rw [e] at hq <;> rw [abs_le] at h1 <;> constructor <;> intro <;> linarith
  | .half c n, h =>
    intro q hq
    simp only [pd, EReal.coe_lt_coe_iff] at hq
    simp only [inside]
    have h1 : |dot (p - c) n - dot (q - c) n| ≤ ‖p - q‖ := by
      have := perp q n p (by simpa [Sound] using h) q (by simp [dot])
      have e : dot (p - c) n - dot (q - c) n = dot (p - q) n := by unfold dot; simp; ring
      rwa [e]
    rw [decide_eq_decide]
    rcases abs_cases (dot (p - c) n) with ⟨e, _⟩ | ⟨e, _⟩ <;> rw [e] at hq <;> rw [abs_le] at h1 <;> constructor <;> intro <;> linarith
  | .poly [] f, h => simp [Sound] at h
  | .poly [_] f, h => simp [Sound] at h
  | .poly (a :: b :: l) f, h =>
    exact clear_of_dist _ _ p _ (C37_polygon_distance a b l f p).1 (by rw [Sound] at h; exact h.2)
  | .inv g, h =>
    intro q hq
    simp only [inside]
    rw [clear_pd g p (by simpa [Sound] using h) q (by simpa [pd] using hq)]
  | .union gs, h =>
    have h0 : Clear (fun _ => false) p ⊤ := fun _ _ => rfl
    have := (clear_uloop gs p (by simpa [Sound] using h) (fun _ => false) { d := ⊤, near := 0, pin := false } rfl h0).2
    intro q hq
    have := this q hq
    simpa [inside] using this
lemma clear_uloop (gs : List Geom) (p : ℂ) (h : SoundAll gs) (S : ℂ → Bool) (s : U) (hp : s.pin = S p) (hs : Clear S p s.d) :
    (uloop gs p s).pin = (S p || insideAny gs p) ∧ Clear (fun q => S q || insideAny gs q) p (uloop gs p s).d := by
  match gs, h with
  | [], _ => simpa [uloop, insideAny] using ⟨hp, hs⟩
  | g :: gs, h =>
    obtain ⟨a, b⟩ := ustep_clear S (inside g) p s (pd g p).1 (pd g p).2 hp hs (clear_pd g p (by rw [SoundAll] at h; exact h.1))
    have := clear_uloop gs p (by rw [SoundAll] at h; exact h.2) (fun q => S q || inside g q) _ a b
    simpa [uloop, insideAny, Bool.or_assoc] using this
end

/-- **C37 (clearance).** For every geometry, composed in any way: moving a point by less than its distance to the boundary never moves
it from inside to outside or back. -/
theorem C37_clearance (g : Geom) (h : Sound g) (p q : ℂ) (hq : ((‖p - q‖ : ℝ) : EReal) < (pd g p).1) :
    inside g q = inside g p := clear_pd g p h q hq

lemma ustep_outside (s : U) (d : EReal) (near : ℂ) (hp : s.pin = false) : (ustep s d near false).d = min s.d d ∧ (ustep s d near false).pin = false := by
  unfold ustep
  by_cases h : d < s.d
  · simp [hp, h, min_eq_right h.le]
  · simp [hp, h, min_eq_left (not_lt.1 h)]

lemma uloop_outside (gs : List Geom) (p : ℂ) (s : U) (hp : s.pin = false) (h : ∀ g ∈ gs, inside g p = false) :
    (∀ g ∈ gs, (uloop gs p s).d ≤ (pd g p).1) ∧ (uloop gs p s).d ≤ s.d ∧ ((uloop gs p s).d = s.d ∨ ∃ g ∈ gs, (uloop gs p s).d = (pd g p).1) := by
  induction gs generalizing s with
  | nil => simp [uloop]
  | cons g gs ih =>
    rw [uloop]
    have hg := h g (by simp)
    rw [hg]
    obtain ⟨h1, h2⟩ := ustep_outside s (pd g p).1 (pd g p).2 hp
    obtain ⟨i1, i2, i3⟩ := ih (ustep s (pd g p).1 (pd g p).2 false) h2 (fun g' hg' => h g' (by simp [hg']))
    rw [h1] at i2 i3
    refine ⟨?_, i2.trans (min_le_left _ _), ?_⟩
    · intro g' hg'
      rw [List.mem_cons] at hg'
      rcases hg' with rfl | hg'
      · exact i2.trans (min_le_right _ _)
      · exact i1 g' hg'
    · rcases i3 with i3 | ⟨g', hg', e⟩
      · rcases min_choice s.d (pd g p).1 with e | e
        · left; rw [i3, e]
        · right; exact ⟨g, by simp, by rw [i3, e]⟩
      · right; exact ⟨g', by simp [hg'], e⟩

/-- **C37 (union distance, outside).** For a point outside, the distance to a union is the smallest of the distances to its members. -/
theorem C37_union_distance_outside (g : Geom) (gs : List Geom) (p : ℂ) (h : inside (.union (g :: gs)) p = false) :
    (∀ g' ∈ g :: gs, (pd (.union (g :: gs)) p).1 ≤ (pd g' p).1) ∧ ∃ g' ∈ g :: gs, (pd (.union (g :: gs)) p).1 = (pd g' p).1 := by
  have hall : ∀ g' ∈ g :: gs, inside g' p = false := by
    intro g' hg'
    by_contra hc
    rw [Bool.not_eq_false] at hc
    have := (inside_union (g :: gs) p).2 ⟨g', hg', hc⟩
    rw [h] at this; cases this
  obtain ⟨a, b, c⟩ := uloop_outside (g :: gs) p { d := ⊤, near := 0, pin := false } rfl hall
  simp only [pd]
  refine ⟨a, ?_⟩
  rcases c with c | c
  · refine ⟨g, by simp, ?_⟩
    have := a g (by simp)
    rw [c] at this ⊢
    exact (top_le_iff.1 this).symm
  · exact c

lemma uloop_inside (gs : List Geom) (p : ℂ) (s : U) :
    (s.pin = true → s.d ≤ (uloop gs p s).d ∧ (uloop gs p s).pin = true ∧ (∀ g ∈ gs, inside g p = true → (pd g p).1 ≤ (uloop gs p s).d) ∧
      ((uloop gs p s).d = s.d ∨ ∃ g ∈ gs, inside g p = true ∧ (uloop gs p s).d = (pd g p).1)) ∧
    (s.pin = false → (∃ g ∈ gs, inside g p = true) → (∀ g ∈ gs, inside g p = true → (pd g p).1 ≤ (uloop gs p s).d) ∧
      ∃ g ∈ gs, inside g p = true ∧ (uloop gs p s).d = (pd g p).1) := by
  induction gs generalizing s with
  | nil => simp [uloop]
  | cons g gs ih =>
    rw [uloop]
    set d := (pd g p).1 with hd
    set s' := ustep s d (pd g p).2 (inside g p) with hs'
    obtain ⟨ih1, ih2⟩ := ih s'
    constructor
    · intro hp
      have hs1 : s'.pin = true ∧ s'.d = (if inside g p = true then max s.d d else s.d) := by
        rw [hs']; unfold ustep
        rcases hi : inside g p with _ | _
        · simp [hp]
        · by_cases h : d > s.d
          · simp [hp, h, max_eq_right h.le]
          · simp [hp, h, max_eq_left (not_lt.1 h)]
      obtain ⟨j1, j2, j3, j4⟩ := ih1 hs1.1
      have hge : s.d ≤ s'.d := by rw [hs1.2]; split_ifs; exacts [le_max_left _ _, le_rfl]
      refine ⟨hge.trans j1, j2, ?_, ?_⟩
      · intro g' hg' hin
        rw [List.mem_cons] at hg'
        rcases hg' with rfl | hg'
        · refine le_trans ?_ j1
          rw [hs1.2, if_pos hin]; exact le_max_right _ _
        · exact j3 g' hg' hin
      · rcases j4 with j4 | ⟨g', hg', hin, e⟩
        · by_cases hin : inside g p = true
          · rw [j4, hs1.2, if_pos hin]
            rcases max_choice s.d d with e | e
            · exact Or.inl e
            · exact Or.inr ⟨g, by simp, hin, e⟩
          · left; rw [j4, hs1.2, if_neg hin]
        · exact Or.inr ⟨g', by simp [hg'], hin, e⟩
    · intro hp hex
      by_cases hin : inside g p = true
      · have hs1 : s'.pin = true ∧ s'.d = d := by
          rw [hs']; unfold ustep; simp [hp, hin]
        obtain ⟨j1, j2, j3, j4⟩ := ih1 hs1.1
        rw [hs1.2] at j1 j4
        refine ⟨?_, ?_⟩
        · intro g' hg' hin'
          rw [List.mem_cons] at hg'
          rcases hg' with rfl | hg'
          · exact j1
          · exact j3 g' hg' hin'
        · rcases j4 with j4 | ⟨g', hg', hin', e⟩
          · exact ⟨g, by simp, hin, j4⟩
          · exact ⟨g', by simp [hg'], hin', e⟩
      · have hin0 : inside g p = false := by simpa using hin
        have hs1 : s'.pin = false := by
          rw [hs', hin0]; exact (ustep_outside s d (pd g p).2 hp).2
        have hex' : ∃ g ∈ gs, inside g p = true := by
          obtain ⟨g', hg', h⟩ := hex
          rw [List.mem_cons] at hg'
          rcases hg' with rfl | hg'
          · exact absurd h hin
          · exact ⟨g', hg', h⟩
        obtain ⟨j1, g', hg', h, e⟩ := ih2 hs1 hex'
        refine ⟨?_, g', by simp [hg'], h, e⟩
        intro g'' hg'' hin''
        rw [List.mem_cons] at hg''
        rcases hg'' with rfl | hg''
        · exact absurd hin'' hin
        · exact j1 g'' hg'' hin''

/-- **C37 (union distance, inside).** For a point inside, the distance to a union is the largest distance to one of the members that
contain it ... -/
theorem C37_union_distance_inside (gs : List Geom) (p : ℂ) (h : inside (.union gs) p = true) :
    (∀ g ∈ gs, inside g p = true → (pd g p).1 ≤ (pd (.union gs) p).1) ∧
    ∃ g ∈ gs, inside g p = true ∧ (pd (.union gs) p).1 = (pd g p).1 :=
  (uloop_inside gs p { d := ⊤, near := 0, pin := false }).2 rfl ((inside_union gs p).1 h)

/-- **C37 (finding).** ... which may be smaller than the distance to the boundary of the union: for two discs of radius 1 with centres
at 0 and 1, the distance at 0.5 is 0.5, but all points up to a distance of 0.8 are inside. -/
theorem C37_union_distance_too_small :
    (pd (.union [.circle 0 1, .circle 1 1]) (1 / 2)).1 = ((1 / 2 : ℝ) : EReal) ∧
    ∀ q : ℂ, ‖(1 / 2 : ℂ) - q‖ < 0.8 → inside (.union [.circle 0 1, .circle 1 1]) q = true := by
  have n1 : ‖(1 / 2 : ℂ)‖ = 1 / 2 := by rw [norm_div]; simp
  have n2 : ‖(1 / 2 : ℂ) - 1‖ = 1 / 2 := by
    rw [show (1 / 2 : ℂ) - 1 = -(1 / 2) by norm_num, norm_neg, n1]
  constructor
  · have hin : inside (.union [.circle 0 1, .circle 1 1]) (1 / 2) = true := by
      rw [inside_union]
      refine ⟨.circle 0 1, by simp, ?_⟩
      simp only [inside, sub_zero, n1]; norm_num
    obtain ⟨_, g, hg, _, e⟩ := C37_union_distance_inside _ _ hin
    rw [e]
    simp only [List.mem_cons, List.not_mem_nil, or_false] at hg
    rcases hg with rfl | rfl
    · simp only [pd, sub_zero, n1]; congr 1; norm_num [abs_of_nonpos]
    · simp only [pd, n2]; congr 1; norm_num [abs_of_nonpos]
  · intro q hq
    rw [inside_union]
    have h2 : ‖(1 / 2 : ℂ) - q‖ ^ 2 < 0.64 := by
      have := norm_nonneg ((1 / 2 : ℂ) - q)
      nlinarith
    rw [← dot_self] at h2
    unfold dot at h2
    simp at h2
    rcases le_total q.re (1 / 2) with h | h
    · refine ⟨.circle 0 1, by simp, ?_⟩
      simp only [inside, sub_zero, decide_eq_true_eq]
      rw [← sq_le_one_iff₀ (norm_nonneg _), ← dot_self]
      unfold dot
      norm_num at h2
      nlinarith
    · refine ⟨.circle 1 1, by simp, ?_⟩
      simp only [inside, decide_eq_true_eq]
      rw [← sq_le_one_iff₀ (norm_nonneg _), ← dot_self]
      unfold dot
      simp
      norm_num at h2
      nlinarith

/-- **C37 (circle nearest points, finding).** Without a point at the centre all nearest points are right; with one, and none or more
than two others, the call raises; with two others it may return points that are not on the circle. -/
theorem C37_circle_nearest (c : ℂ) (r : ℝ) (ps : List ℂ) :
    (c ∉ ps → circleNearest c r ps = some (ps.map (fun p => (pd (.circle c r) p).2))) ∧
    (c ∈ ps → (ps.filter (fun p => p ≠ c)).length ≠ 1 → (ps.filter (fun p => p ≠ c)).length ≠ 2 → circleNearest c r ps = none) := by
  have hf : ∀ l : List ℂ, l.filter (fun p => decide (‖p - c‖ > 0)) = l.filter (fun p => p ≠ c) := by
    intro l
    congr 1; funext p
    rw [decide_eq_decide, gt_iff_lt, norm_pos_iff, sub_ne_zero]
  constructor
  · intro h
    unfold circleNearest
    simp only
    rw [hf, List.filter_eq_self.2 (fun a ha => by simpa using fun e : a = c => h (e ▸ ha)), if_pos rfl]
    simp only [pd]
  · intro h h1 h2
    unfold circleNearest
    simp only
    rw [hf, if_neg]
    · match hl : ps.filter (fun p => p ≠ c) with
      | [] => rfl
      | [_] => rw [hl] at h1; simp at h1
      | [_, _] => rw [hl] at h2; simp at h2
      | _ :: _ :: _ :: _ => rfl
    · intro e
      have := List.length_filter_eq_length_iff.1 e c h
      simp at this

/-! ### Bounding boxes -/

/-- Geometries for which the lower corner of the bounding box is right: half planes are either exactly or clearly not parallel to an axis,
polygons contain no points outside of the box of their vertices, and for the inverse of a union with several members, in every unbounded
coordinate one of the inverted members has a finite bound. -/
inductive BoxOk : Geom → Prop
  | circle (c : ℂ) (r : ℝ) : BoxOk (.circle c r)
  | half (c n : ℂ) (h1 : ‖n - 1‖ < 1e-13 → n = 1) (h2 : ‖n - Complex.I‖ < 1e-13 → n = Complex.I) : BoxOk (.half c n)
  | poly (pts : List ℂ) (f : ℂ → Bool) (h : ∀ p, f p = true → (∃ v ∈ pts, v.re ≤ p.re) ∧ ∃ v ∈ pts, v.im ≤ p.im) : BoxOk (.poly pts f)
  | union (gs : List Geom) (h : ∀ g ∈ gs, BoxOk g) : BoxOk (.union gs)
  | invCircle (c : ℂ) (r : ℝ) : BoxOk (.inv (.circle c r))
  | invPoly (pts : List ℂ) (f : ℂ → Bool) : BoxOk (.inv (.poly pts f))
  | invOne (g : Geom) (h : BoxOk (inverse g)) : BoxOk (.inv (.union [g]))
  | invUnion (gs : List Geom) (hl : gs.length ≠ 1) (h : ∀ g ∈ gs, BoxOk (inverse g))
      (h1 : IsInf (pMin (.union gs)).1 → ∃ g ∈ gs, ¬ IsInf (pMin (inverse g)).1)
      (h2 : IsInf (pMin (.union gs)).2 → ∃ g ∈ gs, ¬ IsInf (pMin (inverse g)).2) : BoxOk (.inv (.union gs))

lemma minAll_le_aux (l : List EReal) (z : EReal) : l.foldl min z ≤ z ∧ ∀ x ∈ l, l.foldl min z ≤ x := by
  induction l generalizing z with
  | nil => simp
  | cons a l ih =>
    obtain ⟨h1, h2⟩ := ih (min z a)
    rw [List.foldl_cons]
    refine ⟨h1.trans (min_le_left _ _), ?_⟩
    intro x hx
    rw [List.mem_cons] at hx
    rcases hx with rfl | hx
    · exact h1.trans (min_le_right _ _)
    · exact h2 x hx

lemma minAll_le (l : List EReal) (x : EReal) (h : x ∈ l) : minAll l ≤ x := (minAll_le_aux l ⊤).2 x h

lemma pMin_union (gs : List Geom) : pMin (.union gs) = (minAll (gs.map (fun g => (pMin g).1)), minAll (gs.map (fun g => (pMin g).2))) := by
  rw [pMin]
  simp only [List.attach_map_val (l := gs) (f := fun g => (pMin g).1), List.attach_map_val (l := gs) (f := fun g => (pMin g).2)]

lemma pMin_inv_union (gs : List Geom) (h : gs.length ≠ 1) :
    pMin (.inv (.union gs)) =
      if ¬ IsInf (pMin (.union gs)).1 ∧ ¬ IsInf (pMin (.union gs)).2 then (⊥, ⊥)
      else ((if IsInf (pMin (.union gs)).1 then minAll ((gs.map (fun g => (pMin (inverse g)).1)).filter (fun y => ¬ IsInf y)) else ⊥),
        (if IsInf (pMin (.union gs)).2 then minAll ((gs.map (fun g => (pMin (inverse g)).2)).filter (fun y => ¬ IsInf y)) else ⊥)) := by
  have hm : gs.attach.map (fun g => pMin (inverse g.1)) = gs.map (fun g => pMin (inverse g)) :=
    List.attach_map_val (l := gs) (f := fun g => pMin (inverse g))
  rw [pMin.eq_6]
  · rw [hm]; simp only [List.map_map]; rfl
  · intro g hg; rw [hg] at h; simp at h

lemma inside_inverse_of_not (g : Geom) (p : ℂ) (h : inside g p = false) : inside (inverse g) p = true := by
  have : ¬ OnEdge g p := fun he => by
    have := (C37_edge_in_both g p he).1
    rw [h] at this; cases this
  rw [inside_inverse g p this, h]; rfl

/-- **C37 (bounding box).** No point of the geometry is below the lower corner of its bounding box (under the conditions of `BoxOk`). -/
theorem C37_bounding_box_partial (g : Geom) (hg : BoxOk g) (p : ℂ) (hp : inside g p = true) :
    (pMin g).1 ≤ ((p.re : ℝ) : EReal) ∧ (pMin g).2 ≤ ((p.im : ℝ) : EReal) := by
  induction hg with
  | circle c r =>
    simp only [inside, decide_eq_true_eq] at hp
    simp only [pMin, EReal.coe_le_coe_iff]
    have h1 := (Complex.abs_re_le_norm (p - c)).trans hp
    have h2 := (Complex.abs_im_le_norm (p - c)).trans hp
    rw [abs_le] at h1 h2
    simp only [Complex.sub_re, Complex.sub_im] at h1 h2
    constructor <;> linarith
  | half c n h1 h2 =>
    simp only [inside, decide_eq_true_eq] at hp
    simp only [pMin, halfMin]
    split_ifs with a b d
    · rw [h1 a] at hp
      refine ⟨?_, bot_le⟩
      rw [EReal.coe_le_coe_iff]
      simp [dot] at hp; linarith
    · exact ⟨bot_le, bot_le⟩
    · rw [h2 d] at hp
      refine ⟨bot_le, ?_⟩
      rw [EReal.coe_le_coe_iff]
      simp [dot] at hp; linarith
    · exact ⟨bot_le, bot_le⟩
  | poly pts f h =>
    simp only [inside] at hp
    obtain ⟨⟨v, hv, hvr⟩, ⟨w, hw, hwi⟩⟩ := h p hp
    simp only [pMin]
    constructor
    · exact (minAll_le _ _ (List.mem_map.2 ⟨v, hv, rfl⟩)).trans (EReal.coe_le_coe_iff.2 hvr)
    · exact (minAll_le _ _ (List.mem_map.2 ⟨w, hw, rfl⟩)).trans (EReal.coe_le_coe_iff.2 hwi)
  | union gs h ih =>
    obtain ⟨g, hg, hi⟩ := (inside_union gs p).1 hp
    have := ih g hg hi
    rw [pMin_union]
    exact ⟨(minAll_le _ _ (List.mem_map.2 ⟨g, hg, rfl⟩)).trans this.1, (minAll_le _ _ (List.mem_map.2 ⟨g, hg, rfl⟩)).trans this.2⟩
  | invCircle c r => simp [pMin]
  | invPoly pts f => simp [pMin]
  | invOne g h ih =>
    rw [pMin]
    apply ih
    apply inside_inverse_of_not
    simpa [inside, insideAny] using hp
  | invUnion gs hl h h1 h2 ih =>
    have hout : ∀ g ∈ gs, inside (inverse g) p = true := by
      intro g hg
      apply inside_inverse_of_not
      by_contra hc
      rw [Bool.not_eq_false] at hc
      have := (inside_union gs p).2 ⟨g, hg, hc⟩
      simp only [inside] at hp this
      rw [this] at hp; cases hp
    rw [pMin_inv_union gs hl]
    split_ifs with a b d e
    · exact ⟨bot_le, bot_le⟩
    · obtain ⟨g, hg, hi⟩ := h1 b
      obtain ⟨g', hg', hi'⟩ := h2 d
      exact ⟨(minAll_le _ _ (List.mem_filter.2 ⟨List.mem_map.2 ⟨g, hg, rfl⟩, by simpa using hi⟩)).trans (ih g hg (hout g hg)).1,
        (minAll_le _ _ (List.mem_filter.2 ⟨List.mem_map.2 ⟨g', hg', rfl⟩, by simpa using hi'⟩)).trans (ih g' hg' (hout g' hg')).2⟩
    · obtain ⟨g, hg, hi⟩ := h1 b
      exact ⟨(minAll_le _ _ (List.mem_filter.2 ⟨List.mem_map.2 ⟨g, hg, rfl⟩, by simpa using hi⟩)).trans (ih g hg (hout g hg)).1, bot_le⟩
    · obtain ⟨g, hg, hi⟩ := h2 e
      exact ⟨bot_le, (minAll_le _ _ (List.mem_filter.2 ⟨List.mem_map.2 ⟨g, hg, rfl⟩, by simpa using hi⟩)).trans (ih g hg (hout g hg)).2⟩
    · exact ⟨bot_le, bot_le⟩

/-- **C37 (bounding box, finding).** The lower corner of the intersection of two half planes that are not parallel to an axis is
`(inf, inf)`, although it contains points. -/
theorem C37_bounding_box_wrong (c d m n : ℂ) (hm : ‖m‖ = 1) (hn : ‖n‖ = 1)
    (h : ∀ x ∈ [m, n], 1e-13 ≤ ‖x - 1‖ ∧ 1e-13 ≤ ‖x - (-1)‖ ∧ 1e-13 ≤ ‖x - Complex.I‖ ∧ 1e-13 ≤ ‖x - (-Complex.I)‖) :
    pMin (inter [.half c m, .half d n]) = (⊤, ⊤) := by
  have hh : ∀ (c x : ℂ), (1e-13 ≤ ‖x - 1‖ ∧ 1e-13 ≤ ‖x - (-1)‖ ∧ 1e-13 ≤ ‖x - Complex.I‖ ∧ 1e-13 ≤ ‖x - (-Complex.I)‖) →
      pMin (.half c x) = (⊥, ⊥) := by
    intro c x ⟨a, b, d, _⟩
    simp only [pMin, halfMin]
    rw [if_neg (not_lt.2 a), if_neg (not_lt.2 b), if_neg (not_lt.2 d)]
  have hneg : ∀ x : ℂ, (1e-13 ≤ ‖x - 1‖ ∧ 1e-13 ≤ ‖x - (-1)‖ ∧ 1e-13 ≤ ‖x - Complex.I‖ ∧ 1e-13 ≤ ‖x - (-Complex.I)‖) →
      (1e-13 ≤ ‖-x - 1‖ ∧ 1e-13 ≤ ‖-x - (-1)‖ ∧ 1e-13 ≤ ‖-x - Complex.I‖ ∧ 1e-13 ≤ ‖-x - (-Complex.I)‖) := by
    intro x ⟨a, b, d, e⟩
    have f : ∀ y : ℂ, ‖-x - y‖ = ‖x - (-y)‖ := fun y => by rw [← norm_neg]; congr 1; ring
    rw [f, f, f, f, neg_neg, neg_neg]
    exact ⟨b, a, e, d⟩
  have inv1 : ∀ (c x : ℂ), ‖x‖ = 1 → inverse (.half c x) = .half c (-x) := by
    intro c x hx
    simp [inverse, halfPlane, hx]
  have hm' := h m (by simp)
  have hn' := h n (by simp)
  have e : inter [.half c m, .half d n] = .inv (.union [.half c (-m), .half d (-n)]) := by
    simp only [inter, List.map, inv1 c m hm, inv1 d n hn]; rfl
  rw [e, pMin_inv_union _ (by simp), pMin_union]
  simp only [List.map, inv1 c (-m) (by simpa), inv1 d (-n) (by simpa), neg_neg, hh c m hm', hh d n hn', hh c _ (hneg m hm'), hh d _ (hneg n hn')]
  simp [minAll, IsInf]

/-- Geometries for which the upper corner of the bounding box is right: half planes are either exactly or clearly not parallel to an axis,
polygons contain no points outside of the box of their vertices, and for the inverse of a union with several members, in every unbounded
coordinate one of the inverted members has a finite bound. -/
inductive BoxOkMax : Geom → Prop
  | circle (c : ℂ) (r : ℝ) : BoxOkMax (.circle c r)
  | half (c n : ℂ) (h1 : ‖n - (-1)‖ < 1e-13 → n = -1) (h2 : ‖n - (-Complex.I)‖ < 1e-13 → n = -Complex.I) : BoxOkMax (.half c n)
  | poly (pts : List ℂ) (f : ℂ → Bool) (h : ∀ p, f p = true → (∃ v ∈ pts, p.re ≤ v.re) ∧ ∃ v ∈ pts, p.im ≤ v.im) : BoxOkMax (.poly pts f)
  | union (gs : List Geom) (h : ∀ g ∈ gs, BoxOkMax g) : BoxOkMax (.union gs)
  | invCircle (c : ℂ) (r : ℝ) : BoxOkMax (.inv (.circle c r))
  | invPoly (pts : List ℂ) (f : ℂ → Bool) : BoxOkMax (.inv (.poly pts f))
  | invOne (g : Geom) (h : BoxOkMax (inverse g)) : BoxOkMax (.inv (.union [g]))
  | invUnion (gs : List Geom) (hl : gs.length ≠ 1) (h : ∀ g ∈ gs, BoxOkMax (inverse g))
      (h1 : IsInf (pMax (.union gs)).1 → ∃ g ∈ gs, ¬ IsInf (pMax (inverse g)).1)
      (h2 : IsInf (pMax (.union gs)).2 → ∃ g ∈ gs, ¬ IsInf (pMax (inverse g)).2) : BoxOkMax (.inv (.union gs))

lemma le_maxAll_aux (l : List EReal) (z : EReal) : z ≤ l.foldl max z ∧ ∀ x ∈ l, x ≤ l.foldl max z := by
  induction l generalizing z with
  | nil => simp
  | cons a l ih =>
    obtain ⟨h1, h2⟩ := ih (max z a)
    rw [List.foldl_cons]
    refine ⟨(le_max_left _ _).trans h1, ?_⟩
    intro x hx
    rw [List.mem_cons] at hx
    rcases hx with rfl | hx
    · exact (le_max_right _ _).trans h1
    · exact h2 x hx

lemma le_maxAll (l : List EReal) (x : EReal) (h : x ∈ l) : x ≤ maxAll l := (le_maxAll_aux l ⊥).2 x h

lemma pMax_union (gs : List Geom) : pMax (.union gs) = (maxAll (gs.map (fun g => (pMax g).1)), maxAll (gs.map (fun g => (pMax g).2))) := by
  rw [pMax]
  simp only [List.attach_map_val (l := gs) (f := fun g => (pMax g).1), List.attach_map_val (l := gs) (f := fun g => (pMax g).2)]

lemma pMax_inv_union (gs : List Geom) (h : gs.length ≠ 1) :
    pMax (.inv (.union gs)) =
      if ¬ IsInf (pMax (.union gs)).1 ∧ ¬ IsInf (pMax (.union gs)).2 then (⊤, ⊤)
      else ((if IsInf (pMax (.union gs)).1 then maxAll ((gs.map (fun g => (pMax (inverse g)).1)).filter (fun y => ¬ IsInf y)) else ⊤),
        (if IsInf (pMax (.union gs)).2 then maxAll ((gs.map (fun g => (pMax (inverse g)).2)).filter (fun y => ¬ IsInf y)) else ⊤)) := by
  have hm : gs.attach.map (fun g => pMax (inverse g.1)) = gs.map (fun g => pMax (inverse g)) :=
    List.attach_map_val (l := gs) (f := fun g => pMax (inverse g))
  rw [pMax.eq_6]
  · rw [hm]; simp only [List.map_map]; rfl
  · intro g hg; rw [hg] at h; simp at h

/-- **C37 (bounding box, upper corner).** No point of the geometry is above the upper corner of its bounding box (under the conditions of `BoxOkMax`). -/
theorem C37_bounding_box_max_partial (g : Geom) (hg : BoxOkMax g) (p : ℂ) (hp : inside g p = true) :
    ((p.re : ℝ) : EReal) ≤ (pMax g).1 ∧ ((p.im : ℝ) : EReal) ≤ (pMax g).2 := by
  induction hg with
  | circle c r =>
    simp only [inside, decide_eq_true_eq] at hp
    simp only [pMax, EReal.coe_le_coe_iff]
    have h1 := (Complex.abs_re_le_norm (p - c)).trans hp
    have h2 := (Complex.abs_im_le_norm (p - c)).trans hp
    rw [abs_le] at h1 h2
    simp only [Complex.sub_re, Complex.sub_im] at h1 h2
    constructor <;> linarith
  | half c n h1 h2 =>
    simp only [inside, decide_eq_true_eq] at hp
    simp only [pMax, halfMax]
    split_ifs with a b d e
    · exact ⟨le_top, le_top⟩
    · rw [h1 b] at hp
      refine ⟨?_, le_top⟩
      rw [EReal.coe_le_coe_iff]
      simp [dot] at hp; linarith
    · exact ⟨le_top, le_top⟩
    · rw [h2 e] at hp
      refine ⟨le_top, ?_⟩
      rw [EReal.coe_le_coe_iff]
      simp [dot] at hp; linarith
    · exact ⟨le_top, le_top⟩
  | poly pts f h =>
    simp only [inside] at hp
    obtain ⟨⟨v, hv, hvr⟩, ⟨w, hw, hwi⟩⟩ := h p hp
    simp only [pMax]
    constructor
    · exact le_trans (EReal.coe_le_coe_iff.2 hvr) (le_maxAll _ _ (List.mem_map.2 ⟨v, hv, rfl⟩))
    · exact le_trans (EReal.coe_le_coe_iff.2 hwi) (le_maxAll _ _ (List.mem_map.2 ⟨w, hw, rfl⟩))
  | union gs h ih =>
    obtain ⟨g, hg, hi⟩ := (inside_union gs p).1 hp
    have := ih g hg hi
    rw [pMax_union]
    exact ⟨le_trans this.1 (le_maxAll _ _ (List.mem_map.2 ⟨g, hg, rfl⟩)), le_trans this.2 (le_maxAll _ _ (List.mem_map.2 ⟨g, hg, rfl⟩))⟩
  | invCircle c r => simp [pMax]
  | invPoly pts f => simp [pMax]
  | invOne g h ih =>
    rw [pMax]
    apply ih
    apply inside_inverse_of_not
    simpa [inside, insideAny] using hp
  | invUnion gs hl h h1 h2 ih =>
    have hout : ∀ g ∈ gs, inside (inverse g) p = true := by
      intro g hg
      apply inside_inverse_of_not
      by_contra hc
      rw [Bool.not_eq_false] at hc
      have := (inside_union gs p).2 ⟨g, hg, hc⟩
      simp only [inside] at hp this
      rw [this] at hp; cases hp
    rw [pMax_inv_union gs hl]
    split_ifs with a b d e
    · exact ⟨le_top, le_top⟩
    · obtain ⟨g, hg, hi⟩ := h1 b
      obtain ⟨g', hg', hi'⟩ := h2 d
      exact ⟨le_trans ((ih g hg (hout g hg)).1) (le_maxAll _ _ (List.mem_filter.2 ⟨List.mem_map.2 ⟨g, hg, rfl⟩, by simpa using hi⟩)),
        le_trans ((ih g' hg' (hout g' hg')).2) (le_maxAll _ _ (List.mem_filter.2 ⟨List.mem_map.2 ⟨g', hg', rfl⟩, by simpa using hi'⟩))⟩
    · obtain ⟨g, hg, hi⟩ := h1 b
      exact ⟨le_trans ((ih g hg (hout g hg)).1) (le_maxAll _ _ (List.mem_filter.2 ⟨List.mem_map.2 ⟨g, hg, rfl⟩, by simpa using hi⟩)), le_top⟩
    · obtain ⟨g, hg, hi⟩ := h2 e
      exact ⟨le_top, le_trans ((ih g hg (hout g hg)).2) (le_maxAll _ _ (List.mem_filter.2 ⟨List.mem_map.2 ⟨g, hg, rfl⟩, by simpa using hi⟩))⟩
    · exact ⟨le_top, le_top⟩

/-- **C37 (bounding box, finding).** The upper corner of the intersection of two half planes that are not parallel to an axis is
`(-inf, -inf)`, although it contains points. -/
theorem C37_bounding_box_max_wrong (c d m n : ℂ) (hm : ‖m‖ = 1) (hn : ‖n‖ = 1)
    (h : ∀ x ∈ [m, n], 1e-13 ≤ ‖x - 1‖ ∧ 1e-13 ≤ ‖x - (-1)‖ ∧ 1e-13 ≤ ‖x - Complex.I‖ ∧ 1e-13 ≤ ‖x - (-Complex.I)‖) :
    pMax (inter [.half c m, .half d n]) = (⊥, ⊥) := by
  have hh : ∀ (c x : ℂ), (1e-13 ≤ ‖x - 1‖ ∧ 1e-13 ≤ ‖x - (-1)‖ ∧ 1e-13 ≤ ‖x - Complex.I‖ ∧ 1e-13 ≤ ‖x - (-Complex.I)‖) →
      pMax (.half c x) = (⊤, ⊤) := by
    intro c x ⟨a, b, d, e⟩
    simp only [pMax, halfMax]
    rw [if_neg (not_lt.2 a), if_neg (not_lt.2 b), if_neg (not_lt.2 d), if_neg (not_lt.2 e)]
  have hneg : ∀ x : ℂ, (1e-13 ≤ ‖x - 1‖ ∧ 1e-13 ≤ ‖x - (-1)‖ ∧ 1e-13 ≤ ‖x - Complex.I‖ ∧ 1e-13 ≤ ‖x - (-Complex.I)‖) →
      (1e-13 ≤ ‖-x - 1‖ ∧ 1e-13 ≤ ‖-x - (-1)‖ ∧ 1e-13 ≤ ‖-x - Complex.I‖ ∧ 1e-13 ≤ ‖-x - (-Complex.I)‖) := by
    intro x ⟨a, b, d, e⟩
    have f : ∀ y : ℂ, ‖-x - y‖ = ‖x - (-y)‖ := fun y => by rw [← norm_neg]; congr 1; ring
    rw [f, f, f, f, neg_neg, neg_neg]
    exact ⟨b, a, e, d⟩
  have inv1 : ∀ (c x : ℂ), ‖x‖ = 1 → inverse (.half c x) = .half c (-x) := by
    intro c x hx
    simp [inverse, halfPlane, hx]
  have hm' := h m (by simp)
  have hn' := h n (by simp)
  have e : inter [.half c m, .half d n] = .inv (.union [.half c (-m), .half d (-n)]) := by
    simp only [inter, List.map, inv1 c m hm, inv1 d n hn]; rfl
  rw [e, pMax_inv_union _ (by simp), pMax_union]
  simp only [List.map, inv1 c (-m) (by simpa), inv1 d (-n) (by simpa), neg_neg, hh c m hm', hh d n hn', hh c _ (hneg m hm'), hh d _ (hneg n hn')]
  simp [maxAll, IsInf]

/-- Discs, unions of such, and differences thereof as far as the box is concerned: geometries with points in all corners' coordinates. -/
inductive Discs : Geom → Prop
  | circle (c : ℂ) (r : ℝ) (h : 0 ≤ r) : Discs (.circle c r)
  | union (g : Geom) (gs : List Geom) (h : ∀ x ∈ g :: gs, Discs x) : Discs (.union (g :: gs))

lemma foldl_min_mem : ∀ (l : List EReal) (z : EReal), l.foldl min z ∈ z :: l
  | [], z => by simp
  | a :: l, z => by
    rw [List.foldl_cons]
    have := foldl_min_mem l (min z a)
    rcases min_choice z a with h | h <;> rw [h] at this ⊢ <;> simp only [List.mem_cons] at this ⊢ <;> tauto

lemma foldl_max_mem : ∀ (l : List EReal) (z : EReal), l.foldl max z ∈ z :: l
  | [], z => by simp
  | a :: l, z => by
    rw [List.foldl_cons]
    have := foldl_max_mem l (max z a)
    rcases max_choice z a with h | h <;> rw [h] at this ⊢ <;> simp only [List.mem_cons] at this ⊢ <;> tauto

lemma minAll_mem (a : EReal) (l : List EReal) : minAll (a :: l) ∈ a :: l := by
  rw [minAll, List.foldl_cons, min_eq_right le_top]; exact foldl_min_mem l a

lemma maxAll_mem (a : EReal) (l : List EReal) : maxAll (a :: l) ∈ a :: l := by
  rw [maxAll, List.foldl_cons, max_eq_right bot_le]; exact foldl_max_mem l a

/-- **C37 (bounding box, tight).** For unions of discs each side of the box touches the geometry. -/
theorem C37_bounding_box_tight (g : Geom) (hg : Discs g) :
    (∃ p, inside g p = true ∧ ((p.re : ℝ) : EReal) = (pMin g).1) ∧ (∃ p, inside g p = true ∧ ((p.im : ℝ) : EReal) = (pMin g).2) ∧
    (∃ p, inside g p = true ∧ ((p.re : ℝ) : EReal) = (pMax g).1) ∧ (∃ p, inside g p = true ∧ ((p.im : ℝ) : EReal) = (pMax g).2) := by
  induction hg with
  | circle c r h =>
    refine ⟨⟨c - r, ?_, by simp [pMin]⟩, ⟨c - r * Complex.I, ?_, by simp [pMin]⟩, ⟨c + r, ?_, by simp [pMax]⟩, ⟨c + r * Complex.I, ?_, by simp [pMax]⟩⟩ <;>
      simp [inside, abs_of_nonneg h]
  | union g gs h ih =>
    have key : ∀ (F : Geom → EReal) (m : EReal) (co : ℂ → ℝ), m ∈ (g :: gs).map F → (∀ x ∈ g :: gs, ∃ p, inside x p = true ∧ ((co p : ℝ) : EReal) = F x) →
        ∃ p, inside (.union (g :: gs)) p = true ∧ ((co p : ℝ) : EReal) = m := by
      intro F m co hm hx
      obtain ⟨x, hx1, rfl⟩ := List.mem_map.1 hm
      obtain ⟨p, h1, h2⟩ := hx x hx1
      exact ⟨p, (inside_union _ _).2 ⟨x, hx1, h1⟩, h2⟩
    rw [pMin_union, pMax_union]
    exact ⟨key (fun x => (pMin x).1) _ Complex.re (minAll_mem _ _) (fun x hx => (ih x hx).1), key (fun x => (pMin x).2) _ Complex.im (minAll_mem _ _) (fun x hx => (ih x hx).2.1),
      key (fun x => (pMax x).1) _ Complex.re (maxAll_mem _ _) (fun x hx => (ih x hx).2.2.1), key (fun x => (pMax x).2) _ Complex.im (maxAll_mem _ _) (fun x hx => (ih x hx).2.2.2)⟩

/-- **C37 (bounding box, half planes).** The box of a half plane parallel to an axis ends at its edge, on the outer side only. -/
theorem C37_half_plane_box (c : ℂ) :
    pMin (.half c 1) = (((c.re : ℝ) : EReal), ⊥) ∧ pMax (.half c 1) = (⊤, ⊤) ∧ pMin (.half c (-1)) = (⊥, ⊥) ∧ pMax (.half c (-1)) = (((c.re : ℝ) : EReal), ⊤) ∧
    pMin (.half c Complex.I) = (⊥, ((c.im : ℝ) : EReal)) ∧ pMax (.half c Complex.I) = (⊤, ⊤) ∧ pMin (.half c (-Complex.I)) = (⊥, ⊥) ∧ pMax (.half c (-Complex.I)) = (⊤, ((c.im : ℝ) : EReal)) := by
  have far : ∀ x : ℂ, 1 ≤ |x.re| ∨ 1 ≤ |x.im| → ¬ ‖x‖ < 1e-13 := by
    intro x hx h
    have h1 := Complex.abs_re_le_norm x
    have h2 := Complex.abs_im_le_norm x
    rcases hx with hx | hx <;> linarith
  have z : ‖(0 : ℂ)‖ < 1e-13 := by rw [norm_zero]; norm_num
  have e1 : ¬ ‖(-1 : ℂ) - 1‖ < 1e-13 := far _ (Or.inl (by norm_num))
  have e2 : ¬ ‖(Complex.I : ℂ) - 1‖ < 1e-13 := far _ (Or.inl (by norm_num))
  have e3 : ¬ ‖(Complex.I : ℂ) - (-1)‖ < 1e-13 := far _ (Or.inl (by norm_num))
  have e4 : ¬ ‖(-Complex.I : ℂ) - 1‖ < 1e-13 := far _ (Or.inl (by norm_num))
  have e5 : ¬ ‖(-Complex.I : ℂ) - (-1)‖ < 1e-13 := far _ (Or.inl (by norm_num))
  have e6 : ¬ ‖(-Complex.I : ℂ) - Complex.I‖ < 1e-13 := far _ (Or.inr (by norm_num))
  simp only [pMin, pMax, halfMin, halfMax]
  refine ⟨?_, ?_, ?_, ?_, ?_, ?_, ?_, ?_⟩
  · rw [sub_self, if_pos z]
  · rw [sub_self, if_pos z]
  · rw [if_neg e1, sub_self, if_pos z]
  · rw [if_neg e1, sub_self, if_pos z]
  · rw [if_neg e2, if_neg e3, sub_self, if_pos z]
  · rw [if_neg e2, if_neg e3, sub_self, if_pos z]
  · rw [if_neg e4, if_neg e5, if_neg e6]
  · rw [if_neg e4, if_neg e5, if_neg e6, sub_self, if_pos z]

/- concrete cases -/
/-- difference of two discs -/
example : BoxOkMax (sub (.circle 0 5) (.circle 3 1)) := by
  have e : sub (.circle 0 5) (.circle 3 1) = .inv (.union [.inv (.circle 0 5), .circle 3 1]) := by simp [sub, inter, inverse]
  rw [e]
  apply BoxOkMax.invUnion
  · simp
  · simp [inverse, BoxOkMax.circle, BoxOkMax.invCircle]
  · intro _; exact ⟨.inv (.circle 0 5), by simp, by simp [inverse, pMax, IsInf]⟩
  · intro _; exact ⟨.inv (.circle 0 5), by simp, by simp [inverse, pMax, IsInf]⟩

example : Sound (.union [.circle 0 1, .inv (.circle 3 2), .half 0 1]) := by simp [Sound, SoundAll]
example : ¬ OnEdge (.circle 0 1) 0 := by rintro ⟨c, n, h, _⟩; cases h
example : OnEdge (.half 0 1) Complex.I := ⟨0, 1, rfl, by simp [dot]⟩
example : Normalised (.half 0 1) := by intro c n h; cases h; simp
example : inside (.union [.circle 0 1, .circle 5 1]) 3 = false := by
  rw [← Bool.not_eq_true, inside_union]
  rintro ⟨g, hg, hi⟩
  simp only [List.mem_cons, List.not_mem_nil, or_false] at hg
  rcases hg with rfl | rfl
  · simp [inside] at hi
  · simp only [inside, decide_eq_true_eq] at hi
    rw [show (3 : ℂ) - 5 = -2 by norm_num, norm_neg] at hi
    simp at hi
/-- difference of two discs -/
example : BoxOk (sub (.circle 0 5) (.circle 3 1)) := by
  have e : sub (.circle 0 5) (.circle 3 1) = .inv (.union [.inv (.circle 0 5), .circle 3 1]) := by simp [sub, inter, inverse]
  rw [e]
  apply BoxOk.invUnion
  · simp
  · simp [inverse, BoxOk.circle, BoxOk.invCircle]
  · intro _; exact ⟨.inv (.circle 0 5), by simp, by simp [inverse, pMin, IsInf]⟩
  · intro _; exact ⟨.inv (.circle 0 5), by simp, by simp [inverse, pMin, IsInf]⟩
/-- a diagonal half plane -/
example : let x : ℂ := ⟨3 / 5, 4 / 5⟩
    ‖x‖ = 1 ∧ 1e-13 ≤ ‖x - 1‖ ∧ 1e-13 ≤ ‖x - (-1)‖ ∧ 1e-13 ≤ ‖x - Complex.I‖ ∧ 1e-13 ≤ ‖x - (-Complex.I)‖ := by
  intro x
  refine ⟨?_, ?_, ?_, ?_, ?_⟩
  · rw [← sq_eq_sq₀ (norm_nonneg _) zero_le_one, ← dot_self]; simp [dot, x]; norm_num
  · refine le_trans ?_ (Complex.abs_im_le_norm _); simp [x]; norm_num
  · refine le_trans ?_ (Complex.abs_im_le_norm _); simp [x]; norm_num
  · refine le_trans ?_ (Complex.abs_re_le_norm _); simp [x]; norm_num
  · refine le_trans ?_ (Complex.abs_re_le_norm _); simp [x]; norm_num

end

end Foxes.Props.Geom2d
