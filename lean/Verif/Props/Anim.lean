import Verif.Model.Anim
import Mathlib.Tactic
/-
Property C83: animations.

Independent specification: the k-th frame is made of the artists of the k-th yield of each generator, in the order of the generators.
-/
namespace Foxes.Props.Anim
open Foxes.Anim

variable {F A : Type} [DecidableEq F]

/-- the artists of the k-th yield of a generator; nothing if it ended before -/
def artistsAt (g : Gen F A) (k : ℕ) : List A :=
  match g[k]? with
  | some (.pair _ as) => as
  | _ => []

/-- the k-th frame -/
def frameAt (gs : List (Gen F A)) (k : ℕ) : List A := gs.flatMap fun g => artistsAt g k

/-- every yield is a pair with this figure -/
def OnFig (f : F) (g : Gen F A) : Prop := ∀ y ∈ g, ∃ as, y = .pair f as

omit [DecidableEq F] in
theorem artistsAt_tail (g : Gen F A) (k : ℕ) : artistsAt g.tail k = artistsAt g (k + 1) := by
  unfold artistsAt; rw [List.getElem?_tail]

omit [DecidableEq F] in
theorem frameAt_tail (gs : List (Gen F A)) (k : ℕ) : frameAt (gs.map List.tail) k = frameAt gs (k + 1) := by
  unfold frameAt
  rw [List.flatMap_map]
  congr 1; funext g; exact artistsAt_tail g k

/-- what a pass that succeeds has done -/
theorem frame_ok (gs : List (Gen F A)) : ∀ (fig : Option F) (b : Bool) (gs' : List (Gen F A)) (fig' : Option F) (b' : Bool) (as : List A),
    frame gs fig b = .ok (gs', fig', b', as) →
    gs' = gs.map List.tail ∧ as = frameAt gs 0 ∧
    (b' = true ↔ b = true ∨ ∃ g ∈ gs, g ≠ []) ∧
    (∀ f, fig = some f → fig' = some f) ∧
    (∀ g ∈ gs, ∀ y, g[0]? = some y → ∃ f as, fig' = some f ∧ y = .pair f as) := by
  induction gs with
  | nil => intro fig b gs' fig' b' as h; simp [frame] at h; obtain ⟨rfl, rfl, rfl, rfl⟩ := h; simp [frameAt]
  | cons g gs ih =>
    intro fig b gs' fig' b' as h
    match g with
    | [] =>
      cases hr : frame gs fig b with
      | error e => simp [frame, hr] at h
      | ok r =>
        obtain ⟨r1, r2, r3, r4⟩ := r
        simp [frame, hr] at h
        obtain ⟨rfl, rfl, rfl, rfl⟩ := h
        obtain ⟨h1, h2, h3, h4, h5⟩ := ih _ _ _ _ _ _ hr
        refine ⟨by simp [h1], by rw [h2]; simp [frameAt, artistsAt], by rw [h3]; simp, h4, ?_⟩
        intro g hg y hy
        rcases List.mem_cons.1 hg with rfl | hg
        · simp at hy
        · exact h5 g hg y hy
    | .other :: g => simp [frame] at h
    | .pair f al :: g =>
      by_cases hc : fig.isSome ∧ fig ≠ some f
      · simp only [frame] at h; rw [if_pos hc] at h; cases h
      · simp only [frame] at h; rw [if_neg hc] at h
        cases hr : frame gs (some f) true with
        | error e => simp [hr] at h
        | ok r =>
          obtain ⟨r1, r2, r3, r4⟩ := r
          simp [hr] at h
          obtain ⟨rfl, rfl, rfl, rfl⟩ := h
          obtain ⟨h1, h2, h3, h4, h5⟩ := ih _ _ _ _ _ _ hr
          refine ⟨by simp [h1], by rw [h2]; simp [frameAt, artistsAt], ?_, ?_, ?_⟩
          · simp at h3; simp [h3]
          · intro f' hf; subst hf; simp at hc; rw [hc]; exact h4 f rfl
          · intro g' hg y hy
            rcases List.mem_cons.1 hg with rfl | hg
            · simp at hy; exact ⟨f, al, h4 f rfl, hy.symm⟩
            · exact h5 g' hg y hy

/-- a pass over generators that all stick to one figure succeeds -/
theorem frame_runs (f : F) (gs : List (Gen F A)) : ∀ (fig : Option F) (b : Bool),
    (∀ g ∈ gs, OnFig f g) → (fig = none ∨ fig = some f) →
    ∃ r, frame gs fig b = .ok r ∧ (r.2.1 = none ∨ r.2.1 = some f) := by
  induction gs with
  | nil => intro fig b _ hf; exact ⟨_, rfl, hf⟩
  | cons g gs ih =>
    intro fig b hg hf
    have hgs : ∀ g ∈ gs, OnFig f g := fun g' h => hg g' (List.mem_cons_of_mem _ h)
    match g with
    | [] =>
      obtain ⟨r, hr, h2⟩ := ih fig b hgs hf
      exact ⟨([] :: r.1, r.2), by simp [frame, hr], h2⟩
    | y :: g =>
      obtain ⟨as, rfl⟩ := hg (y :: g) (by simp) y (by simp)
      obtain ⟨r, hr, h2⟩ := ih (some f) true hgs (Or.inr rfl)
      obtain ⟨r1, r2, r3, r4⟩ := r
      refine ⟨(g :: r1, r2, r3, as ++ r4), ?_, h2⟩
      have hc : ¬(fig.isSome ∧ fig ≠ some f) := by rcases hf with rfl | rfl <;> simp
      simp only [frame]; rw [if_neg hc, hr]

omit [DecidableEq F] in
theorem total_tail (gs : List (Gen F A)) : total (gs.map List.tail) ≤ total gs := by
  induction gs with
  | nil => simp [total]
  | cons g gs ih => simp only [total, List.map_cons, List.sum_cons, List.length_tail] at *; omega

omit [DecidableEq F] in
theorem total_lt (gs : List (Gen F A)) (h : frameAt gs 0 ≠ []) : total (gs.map List.tail) < total gs := by
  induction gs with
  | nil => simp [frameAt] at h
  | cons g gs ih =>
    by_cases h0 : artistsAt g 0 = []
    · have h1 : frameAt gs 0 ≠ [] := by
        intro hn; apply h; simp only [frameAt, List.flatMap_cons] at hn ⊢; rw [h0, hn]; rfl
      have := ih h1
      simp only [total, List.map_cons, List.sum_cons, List.length_tail] at *; omega
    · have h2 : g ≠ [] := by rintro rfl; exact h0 rfl
      have h3 : 0 < g.length := List.length_pos_of_ne_nil h2
      have := total_tail gs
      simp only [total, List.map_cons, List.sum_cons, List.length_tail] at *; omega

/-- what the loop has done if it succeeds -/
theorem loop_ok (n : ℕ) : ∀ (gs : List (Gen F A)) (fig : Option F) (b : Bool) (gs' : List (Gen F A)) (fig' : Option F) (b' : Bool) (fs : List (List A)),
    total gs < n → loop n gs fig b = .ok (gs', fig', b', fs) →
    gs' = gs.map (List.drop (fs.length + 1)) ∧ fs = (List.range fs.length).map (frameAt gs) ∧ frameAt gs fs.length = [] ∧
    (∀ l ∈ fs, l ≠ []) ∧ (b' = true ↔ b = true ∨ ∃ g ∈ gs, g ≠ []) ∧
    (∀ f, fig = some f → fig' = some f) ∧
    (∀ g ∈ gs, ∀ (k : ℕ), k ≤ fs.length → ∀ y, g[k]? = some y → ∃ f as, fig' = some f ∧ y = .pair f as) := by
  induction n with
  | zero => intro gs fig b gs' fig' b' fs ht; omega
  | succ n ih =>
    intro gs fig b gs' fig' b' fs ht h
    cases hr : frame gs fig b with
    | error e => simp [loop, hr] at h
    | ok r =>
      obtain ⟨r1, r2, r3, r4⟩ := r
      obtain ⟨h1, h2, h3, h4, h5⟩ := frame_ok _ _ _ _ _ _ _ hr
      simp only [loop, hr] at h
      by_cases he : r4.isEmpty = true
      · rw [if_pos he] at h
        simp at h
        obtain ⟨rfl, rfl, rfl, rfl⟩ := h
        rw [List.isEmpty_iff] at he
        refine ⟨by rw [h1]; simp, by simp, by simp [← h2, he], by simp, h3, h4, ?_⟩
        intro g hg k hk y hy
        have : k = 0 := by simpa using hk
        subst this
        exact h5 g hg y hy
      · rw [if_neg he] at h
        have hne : r4 ≠ [] := by simpa using he
        cases hl : loop n r1 r2 r3 with
        | error e => simp [hl] at h
        | ok q =>
          obtain ⟨q1, q2, q3, q4⟩ := q
          simp [hl] at h
          obtain ⟨rfl, rfl, rfl, rfl⟩ := h
          have htot : total r1 < n := by
            have := total_lt gs (h2 ▸ hne); rw [← h1] at this; omega
          obtain ⟨i1, i2, i3, i4, i5, i6, i7⟩ := ih _ _ _ _ _ _ _ htot hl
          refine ⟨?_, ?_, ?_, ?_, ?_, ?_, ?_⟩
          · rw [i1, h1]; simp
          · rw [List.length_cons, List.range_succ_eq_map, List.map_cons, List.map_map, ← h2]
            congr 1
            refine i2.trans ?_
            apply List.map_congr_left
            intro k _
            rw [h1, frameAt_tail]; rfl
          · rw [List.length_cons, ← frameAt_tail, ← h1]; exact i3
          · intro l hl
            rcases List.mem_cons.1 hl with rfl | hl
            · exact hne
            · exact i4 l hl
          · rw [i5, h3, h1]
            constructor
            · rintro (h | ⟨g, hg, hn⟩)
              · exact h
              · obtain ⟨g', hg', rfl⟩ := List.mem_map.1 hg
                right; exact ⟨g', hg', by rintro rfl; simp at hn⟩
            · intro h; exact Or.inl h
          · intro f hf; exact i6 f (h4 f hf)
          · intro g hg k hk y hy
            cases k with
            | zero =>
              obtain ⟨f, as, hf, hy⟩ := h5 g hg y hy
              exact ⟨f, as, i6 f hf, hy⟩
            | succ k =>
              refine i7 g.tail (by rw [h1]; exact List.mem_map_of_mem hg) k (by simpa using hk) y ?_
              rw [List.getElem?_tail]; exact hy

/-- the loop over generators that all stick to one figure succeeds -/
theorem loop_runs (f : F) (n : ℕ) : ∀ (gs : List (Gen F A)) (fig : Option F) (b : Bool),
    (∀ g ∈ gs, OnFig f g) → (fig = none ∨ fig = some f) → ∃ r, loop n gs fig b = .ok r := by
  induction n with
  | zero => intro gs fig b _ _; exact ⟨_, rfl⟩
  | succ n ih =>
    intro gs fig b hg hf
    obtain ⟨r, hr, h2⟩ := frame_runs f gs fig b hg hf
    obtain ⟨r1, r2, r3, r4⟩ := r
    obtain ⟨h1, -, -, -, -⟩ := frame_ok _ _ _ _ _ _ _ hr
    simp only [loop, hr]
    by_cases he : r4.isEmpty = true
    · rw [if_pos he]; exact ⟨_, rfl⟩
    · rw [if_neg he]
      have hg' : ∀ g ∈ r1, OnFig f g := by
        intro g h y hy
        rw [h1] at h
        obtain ⟨g', hg', rfl⟩ := List.mem_map.1 h
        exact hg g' hg' y (List.mem_of_mem_tail hy)
      obtain ⟨q, hq⟩ := ih r1 r2 r3 hg' h2
      rw [hq]; exact ⟨_, rfl⟩

/-! ### C83 -/

/-- **C83_frames.** If every yield of every generator is a pair with one and the same figure (the one of the animator, if it has one), and something is yielded at all, then the animation is made of the frames 0, 1, ... up to the first one without artists: frame k shows the artists of the k-th yield of each generator, in the order of the generators. What comes after is left in the generators. -/
theorem C83_frames (f : F) (gs : List (Gen F A)) (fig : Option F) (hg : ∀ g ∈ gs, OnFig f g) (hf : fig = none ∨ fig = some f)
    (hy : ∃ g ∈ gs, g ≠ []) :
    ∃ K, (∀ k < K, frameAt gs k ≠ []) ∧ frameAt gs K = [] ∧
      animate gs fig = .ok (gs.map (List.drop (K + 1)), some ((List.range K).map (frameAt gs))) := by
  obtain ⟨⟨gs', fig', b', fs⟩, hr⟩ := loop_runs f (total gs + 1) gs fig false hg hf
  obtain ⟨h1, h2, h3, h4, h5, -, -⟩ := loop_ok _ _ _ _ _ _ _ _ (Nat.lt_succ_self _) hr
  refine ⟨fs.length, ?_, h3, ?_⟩
  · intro k hk
    apply h4
    rw [h2]
    exact List.mem_map.2 ⟨k, List.mem_range.2 hk, rfl⟩
  · have hne : gs.isEmpty = false := by
      obtain ⟨g, hg, -⟩ := hy
      cases gs with
      | nil => simp at hg
      | cons => rfl
    have hb : b' = true := h5.2 (Or.inr hy)
    unfold animate
    rw [hne, hr]
    simp [hb, h1, ← h2]

/-- **C83_all.** If moreover no yield is without artists, nothing is lost: there are as many frames as the longest generator has yields, and nothing is left. -/
theorem C83_all (f : F) (gs : List (Gen F A)) (fig : Option F) (hg : ∀ g ∈ gs, OnFig f g) (hf : fig = none ∨ fig = some f)
    (hy : ∃ g ∈ gs, g ≠ []) (hn : ∀ g ∈ gs, ∀ f as, Yield.pair f as ∈ g → as ≠ []) :
    ∃ K, (∀ g ∈ gs, g.length ≤ K) ∧ (∃ g ∈ gs, g.length = K) ∧
      animate gs fig = .ok (gs.map fun _ => [], some ((List.range K).map (frameAt gs))) := by
  obtain ⟨K, h1, h2, h3⟩ := C83_frames f gs fig hg hf hy
  have hle : ∀ g ∈ gs, g.length ≤ K := by
    intro g hgm
    by_contra hlt
    push Not at hlt
    obtain ⟨as, has⟩ := hg g hgm (g[K]'hlt) (List.getElem_mem hlt)
    have hm : Yield.pair f as ∈ g := has ▸ List.getElem_mem hlt
    have h4 : artistsAt g K = as := by unfold artistsAt; rw [List.getElem?_eq_getElem hlt, has]
    have h5 : artistsAt g K = [] := by
      unfold frameAt at h2
      rw [List.flatMap_eq_nil_iff] at h2
      exact h2 g hgm
    exact hn g hgm f as hm (h4 ▸ h5)
  refine ⟨K, hle, ?_, ?_⟩
  · cases K with
    | zero =>
      obtain ⟨g, hgm, hne⟩ := hy
      exact absurd (List.length_eq_zero_iff.1 (Nat.le_zero.1 (hle g hgm))) hne
    | succ k =>
      by_contra hno
      push Not at hno
      apply h1 k (Nat.lt_succ_self k)
      unfold frameAt
      rw [List.flatMap_eq_nil_iff]
      intro g hgm
      have : g.length ≤ k := by have := hle g hgm; have := hno g hgm; omega
      unfold artistsAt
      rw [List.getElem?_eq_none this]
  · rw [h3]
    congr 2
    apply List.map_congr_left
    intro g hgm
    exact List.drop_eq_nil_of_le (by have := hle g hgm; omega)

/-- **C83_checked.** An animation is only made if all that was taken from the generators are pairs with one and the same figure, and the one the animator was given if there is one; and the frames are those of the specification, none of them empty. -/
theorem C83_checked (gs : List (Gen F A)) (fig : Option F) (gs' : List (Gen F A)) (fs : List (List A))
    (h : animate gs fig = .ok (gs', some fs)) :
    fs = (List.range fs.length).map (frameAt gs) ∧ (∀ l ∈ fs, l ≠ []) ∧
    ∃ f, (∀ f', fig = some f' → f' = f) ∧
      ∀ g ∈ gs, ∀ (k : ℕ), k ≤ fs.length → ∀ y, g[k]? = some y → ∃ as, y = .pair f as := by
  unfold animate at h
  by_cases he : gs.isEmpty = true
  · rw [if_pos he] at h; simp at h
  · rw [if_neg he] at h
    cases hr : loop (total gs + 1) gs fig false with
    | error e => simp [hr] at h
    | ok r =>
      obtain ⟨r1, r2, r3, r4⟩ := r
      obtain ⟨h1, h2, h3, h4, h5, h6, h7⟩ := loop_ok _ _ _ _ _ _ _ _ (Nat.lt_succ_self _) hr
      simp only [hr] at h
      by_cases hb : r3 = true
      · rw [if_pos hb] at h
        simp at h
        obtain ⟨-, rfl⟩ := h
        refine ⟨h2, h4, ?_⟩
        rcases h5.1 hb with hfalse | ⟨g, hg, hne⟩
        · cases hfalse
        · cases g with
          | nil => exact absurd rfl hne
          | cons y g =>
            obtain ⟨f, as, hf, -⟩ := h7 _ hg 0 (Nat.zero_le _) y rfl
            refine ⟨f, ?_, ?_⟩
            · intro f' hf'
              have := h6 f' hf'
              rw [hf] at this
              exact (Option.some.inj this).symm
            · intro g' hg' k hk y' hy'
              obtain ⟨f2, as2, hf2, he2⟩ := h7 g' hg' k hk y' hy'
              rw [hf] at hf2
              obtain rfl := Option.some.inj hf2
              exact ⟨as2, he2⟩
      · rw [if_neg hb] at h; cases h

/-- **C83_none.** Without generators there is no animation, and that is no error. -/
theorem C83_none (fig : Option F) : animate ([] : List (Gen F A)) fig = .ok ([], none) := rfl

/-- **C83_nothing** (finding). If there are generators but none of them yields anything, the call fails with an unbound name, also if the animator was given a figure. -/
theorem C83_nothing (gs : List (Gen F A)) (fig : Option F) (h0 : gs ≠ []) (h : ∀ g ∈ gs, g = []) :
    animate gs fig = .error .unbound := by
  have hfr : ∀ (l : List (Gen F A)), (∀ g ∈ l, g = []) → frame l fig false = .ok (l, fig, false, []) := by
    intro l
    induction l with
    | nil => intro _; rfl
    | cons g l ih =>
      intro hl
      obtain rfl := hl g (by simp)
      simp [frame, ih fun g' hg' => hl g' (List.mem_cons_of_mem _ hg')]
  unfold animate
  have : gs.isEmpty = false := by cases gs with
    | nil => exact absurd rfl h0
    | cons => rfl
  rw [this]
  simp [loop, hfr gs h]

/-- **C83_again** (finding). Once an animation that lost nothing was made, a second call fails, whatever the figure: the generators are used up. -/
theorem C83_again (f : F) (gs : List (Gen F A)) (fig fig2 : Option F) (hg : ∀ g ∈ gs, OnFig f g) (hf : fig = none ∨ fig = some f)
    (hy : ∃ g ∈ gs, g ≠ []) (hn : ∀ g ∈ gs, ∀ f as, Yield.pair f as ∈ g → as ≠ []) :
    ∃ gs' fs, animate gs fig = .ok (gs', some fs) ∧ animate gs' fig2 = .error .unbound := by
  obtain ⟨K, -, -, h⟩ := C83_all f gs fig hg hf hy hn
  refine ⟨_, _, h, C83_nothing _ _ ?_ ?_⟩
  · obtain ⟨g, hg, -⟩ := hy
    intro hm
    rw [List.map_eq_nil_iff] at hm
    subst hm; simp at hg
  · intro g hgm
    obtain ⟨_, _, rfl⟩ := List.mem_map.1 hgm
    rfl

/-- **C83_empty_frame** (finding). All frames after one in which no generator has artists are lost: of any list of frames that starts with an empty one, nothing is shown. -/
theorem C83_empty_frame (f : F) (ls : List (List A)) :
    animate [((([] : List A) :: ls).map (Yield.pair f))] none = .ok ([ls.map (Yield.pair f)], some []) := by
  simp [animate, loop, frame]

/-- two generators of different lengths -/
example : animate [[Yield.pair 7 [1, 2], .pair 7 [3]], [.pair 7 [10]], [.pair 7 [], .pair 7 [20], .pair 7 [30]]] (some 7)
    = .ok ([[], [], []], some [[1, 2, 10], [3, 20], [30]]) := by rfl
/-- a wrong figure -/
example : animate [[Yield.pair 7 [1, 2], .pair 8 [3]]] none = .error .value := by rfl
example : animate [[Yield.pair 7 [1, 2], .other]] none = .error .value := by rfl

/-! ### Wake debug plugin -/

/-- **C83_count.** The points of a state: one set per turbine if they are to be shown, and for each turbine one arrow per state so far. -/
theorem C83_count (showP showV : Bool) (nt : ℕ) (s : Stored) :
    (image showP showV nt s).length = (if showP then nt else 0) + (if showV then nt * s.pts.length else 0) := by
  unfold image
  rw [List.length_append]
  congr 1
  · split <;> simp
  · split
    · simp [List.length_flatMap]
    · simp

/-- **C83_image.** Exactly these artists: for each turbine the positions it had in all states so far, and for each turbine and state an arrow that starts at the position and ends where the vector takes it within the time step. -/
theorem C83_image (showP showV : Bool) (nt : ℕ) (s : Stored) (a : Art) :
    a ∈ image showP showV nt s ↔
      (showP = true ∧ ∃ j < nt, a = .points (s.pts.map fun row => row.getD j (0, 0))) ∨
      (showV = true ∧ ∃ j < nt, ∃ i < s.pts.length, ∃ p v, p = (s.pts.getD i []).getD j (0, 0) ∧ v = (s.vec.getD i []).getD j (0, 0) ∧
        a = .arrow p (v.1 * s.dt, v.2 * s.dt)) := by
  unfold image
  rw [List.mem_append]
  apply or_congr
  · cases showP <;> simp [eq_comm]
  · cases showV
    · simp
    · simp only [if_true, List.mem_flatMap, List.mem_map, List.mem_range, true_and]
      constructor
      · rintro ⟨j, hj, i, hi, rfl⟩
        exact ⟨j, hj, i, hi, _, _, rfl, rfl, rfl⟩
      · rintro ⟨j, hj, i, hi, p, v, rfl, rfl, rfl⟩
        exact ⟨j, hj, i, hi, rfl⟩

/-- **C83_update.** One more entry per state: the states up to the current one, and the time step that starts at this state; at the last state, which has none, the last one again. -/
theorem C83_update (dt : List ℝ) (c : ℕ) (pts vec : List (List (ℝ × ℝ))) (data data' : List Stored)
    (h : update dt c pts vec data = .ok data') :
    ∃ x, data' = data ++ [⟨x, pts.take (c + 1), vec.take (c + 1)⟩] ∧ (c < dt.length → dt[c]? = some x) ∧ (dt.length ≤ c → dt.getLast? = some x) := by
  unfold update at h
  cases hs : stepOf dt c with
  | error e => simp [hs] at h
  | ok x =>
    simp [hs] at h
    refine ⟨x, h.symm, ?_, ?_⟩
    · intro hc
      unfold stepOf at hs
      rw [if_pos hc, List.getElem?_eq_getElem hc] at hs
      simp at hs
      rw [List.getElem?_eq_getElem hc, hs]
    · intro hc
      unfold stepOf at hs
      rw [if_neg (by omega)] at hs
      cases hl : dt.getLast? with
      | none => simp [hl] at hs
      | some y => simp [hl] at hs; rw [hs]

/-- with at least one time step no update fails -/
theorem C83_update_ok (dt : List ℝ) (hd : dt ≠ []) (c : ℕ) (pts vec : List (List (ℝ × ℝ))) (data : List Stored) :
    ∃ data', update dt c pts vec data = .ok data' := by
  unfold update stepOf
  by_cases hc : c < dt.length
  · rw [if_pos hc, List.getElem?_eq_getElem hc]; exact ⟨_, rfl⟩
  · rw [if_neg hc, List.getLast?_eq_getLast_of_ne_nil hd]; exact ⟨_, rfl⟩

/-- the whole run over states c, c+1, ..., the positions and vectors after each of them -/
noncomputable def runFrom (dt : List ℝ) (pv : ℕ → List (List (ℝ × ℝ)) × List (List (ℝ × ℝ))) : ℕ → ℕ → List Stored → Except Err (List Stored)
  | _, 0, data => .ok data
  | c, n + 1, data =>
    match update dt c (pv c).1 (pv c).2 data with
    | .error e => .error e
    | .ok d => runFrom dt pv (c + 1) n d

theorem runFrom_spec (dt : List ℝ) (hd : dt ≠ []) (pv : ℕ → List (List (ℝ × ℝ)) × List (List (ℝ × ℝ))) (n : ℕ) :
    ∀ (c : ℕ) (data : List Stored), ∃ new, runFrom dt pv c n data = .ok (data ++ new) ∧ new.length = n ∧
      ∀ (k : ℕ) s, new[k]? = some s → s.pts = (pv (c + k)).1.take (c + k + 1) ∧ s.vec = (pv (c + k)).2.take (c + k + 1) := by
  induction n with
  | zero => intro c data; exact ⟨[], by simp [runFrom], rfl, by simp⟩
  | succ n ih =>
    intro c data
    obtain ⟨d, hd'⟩ := C83_update_ok dt hd c (pv c).1 (pv c).2 data
    obtain ⟨x, hx, -, -⟩ := C83_update _ _ _ _ _ _ hd'
    obtain ⟨new, h1, h2, h3⟩ := ih (c + 1) d
    refine ⟨⟨x, (pv c).1.take (c + 1), (pv c).2.take (c + 1)⟩ :: new, ?_, by simp [h2], ?_⟩
    · simp only [runFrom, hd', h1]; rw [hx]; simp
    · intro k s hk
      cases k with
      | zero => simp at hk; subst hk; exact ⟨rfl, rfl⟩
      | succ k =>
        have := h3 k s (by simpa using hk)
        rw [show c + (k + 1) = c + 1 + k by omega]
        exact this

/-- **C83_debug.** The plugin and the animator together: the animation has one frame per stored state, if there are turbines and something is to be shown; frame k is the image of what was stored at state k; and the plugin is left without data. -/
theorem C83_debug (fig : F) (showP showV : Bool) (nt : ℕ) (ht : 0 < nt) (hs : showP = true ∨ showV = true)
    (data : List Stored) (hd : data ≠ []) (hp : ∀ s ∈ data, s.pts ≠ []) :
    animate [(images F fig showP showV nt data).1] none = .ok ([[]], some (data.map (image showP showV nt))) ∧
    (images F fig showP showV nt data).2 = [] := by
  refine ⟨?_, rfl⟩
  have hne : ∀ s ∈ data, image showP showV nt s ≠ [] := by
    intro s hsm hnil
    have hl := C83_count showP showV nt s
    rw [hnil] at hl
    have hpl : 0 < s.pts.length := List.length_pos_of_ne_nil (hp s hsm)
    have : 0 < nt * s.pts.length := Nat.mul_pos ht hpl
    rcases hs with rfl | rfl
    · simp at hl; omega
    · simp only [if_true, List.length_nil] at hl; omega
  obtain ⟨K, h1, ⟨g, hg, h2⟩, h3⟩ := C83_all fig [(images F fig showP showV nt data).1] none
    (by
      intro g hg y hy
      simp only [List.mem_singleton] at hg
      subst hg
      obtain ⟨s, _, rfl⟩ := List.mem_map.1 hy
      exact ⟨_, rfl⟩) (Or.inl rfl)
    ⟨_, List.mem_singleton.2 rfl, by simpa [images] using hd⟩
    (by
      intro g hg f as hy
      simp only [List.mem_singleton] at hg
      subst hg
      obtain ⟨s, hsm, he⟩ := List.mem_map.1 hy
      cases he
      exact hne s hsm)
  rw [h3]
  simp only [List.mem_singleton] at hg
  subst hg
  simp only [images, List.length_map] at h2
  subst h2
  congr 3
  apply List.ext_getElem?
  intro k
  by_cases hk : k < data.length
  · simp [frameAt, artistsAt, images, hk]
  · simp [hk]

/-- **C83_run.** A whole run over n > 0 states, with at least one time step and wake points in every state: the animation has n frames, and frame k shows for each turbine the points of the states 0 .. k as they are after state k. -/
theorem C83_run (fig : F) (showV : Bool) (nt n : ℕ) (ht : 0 < nt) (hn : 0 < n) (dt : List ℝ) (hdt : dt ≠ [])
    (pv : ℕ → List (List (ℝ × ℝ)) × List (List (ℝ × ℝ))) (hp : ∀ k < n, (pv k).1 ≠ []) :
    ∃ data fs, runFrom dt pv 0 n [] = .ok data ∧ animate [(images F fig true showV nt data).1] none = .ok ([[]], some fs) ∧ fs.length = n ∧
      ∀ (k : ℕ) fr, fs[k]? = some fr → ∀ j < nt, Art.points (((pv k).1.take (k + 1)).map fun row => row.getD j (0, 0)) ∈ fr := by
  obtain ⟨new, h1, h2, h3⟩ := runFrom_spec dt hdt pv n 0 []
  have hpn : ∀ s ∈ new, s.pts ≠ [] := by
    intro s hs
    obtain ⟨k, hk⟩ := List.mem_iff_getElem?.1 hs
    have hkn : k < n := by
      by_contra hc
      rw [List.getElem?_eq_none (by omega)] at hk; cases hk
    rw [(h3 k s hk).1]
    have := hp k hkn
    simp only [zero_add]
    intro hnil
    rw [List.take_eq_nil_iff] at hnil
    rcases hnil with h | h
    · omega
    · exact this h
  refine ⟨new, _, by simpa using h1, (C83_debug fig true showV nt ht (Or.inl rfl) new (by rintro rfl; simp at h2; omega) hpn).1, by simp [h2], ?_⟩
  intro k fr hfr j hj
  rw [List.getElem?_map] at hfr
  cases hs : new[k]? with
  | none => simp [hs] at hfr
  | some s =>
    simp [hs] at hfr
    subst hfr
    rw [C83_image]
    left
    refine ⟨rfl, j, hj, ?_⟩
    have := (h3 k s hs).1
    rw [zero_add] at this
    rw [this]

/-- **C83_once** (finding). The images can be shown once only: a second generator, made after the first has run, has none, and an animation of it fails. -/
theorem C83_once (fig : F) (showP showV showP' showV' : Bool) (nt : ℕ) (data : List Stored) :
    animate [(images F fig showP' showV' nt (images F fig showP showV nt data).2).1] (some fig) = .error .unbound :=
  C83_nothing _ _ (by simp) (by simp [images])

/-- the hypotheses can be met -/
example : animate [(images ℕ 7 true true 1 [⟨60, [[(1, 2)]], [[(3, 4)]]⟩]).1] none = .ok ([[]], some [[.points [(1, 2)], .arrow (1, 2) (3 * 60, 4 * 60)]]) := by
  rw [(C83_debug 7 true true 1 (by omega) (Or.inl rfl) _ (by simp) (by simp)).1]
  simp [image]

end Foxes.Props.Anim
