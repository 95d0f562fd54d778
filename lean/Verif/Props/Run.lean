import Verif.Proof.Run
import Verif.Props.Chunks
/-
C03 - C06: chunked, scheduled and un-chunked calculations agree.
-/
namespace Foxes.Props.Run
open Foxes.Chunks Foxes.Run Foxes.Props.Chunks

variable {S T R : Type}

/-! ### Specification -/

/-- The un-chunked result of a calculation that computes each (state, target) value from the data
of that state and that target: `out[s][t] = g md[s] pd[s][t]`. -/
def wholePoints (g : S → T → R) (md : List S) (pd : List (List T)) : List (List R) :=
  List.zipWith (fun s ts => ts.map (g s)) md pd

/-- A chunk calculation is local if on every chunk it is that formula. -/
def LocalPoints (mdl : List S → List (List T) → List (List R)) (g : S → T → R) : Prop :=
  ∀ md pd, md.length = pd.length → mdl md pd = wholePoints g md pd

/-- A farm calculation is local in the states if it maps a function over the states; the row of a
state holds the values of all turbines, however they depend on each other. -/
def LocalFarm (mdl : List S → List (List R)) (g : S → List R) : Prop :=
  ∀ md, mdl md = md.map g

/-- A rectangular array. -/
def Rect (d : List (List T)) (w : Nat) : Prop := ∀ r ∈ d, r.length = w

/-! ### C03 -/

theorem runPointsJob_block (mdl : List S → List (List T) → List (List R)) (g : S → T → R)
    (hl : LocalPoints mdl g) (md : List S) (pd : List (List T)) (hlen : md.length = pd.length)
    (b : Span × Span) :
    runPointsJob mdl md pd b = (slice b.1 (wholePoints g md pd)).map (slice b.2) := by
  have h1 : (slice b.1 md).length = ((slice b.1 pd).map (slice b.2)).length := by
    simp [slice, hlen]
  rw [runPointsJob, hl _ _ h1, wholePoints, wholePoints, zipWith_slice, List.map_zipWith,
    List.zipWith_map_right]
  congr 1
  funext s ts
  rw [map_slice]

theorem wholePoints_rect (g : S → T → R) (md : List S) (pd : List (List T)) (nT : Nat)
    (hr : Rect pd nT) : Rect (wholePoints g md pd) nT := by
  intro r hr'
  obtain ⟨i, hi, rfl⟩ := List.getElem_of_mem hr'
  simp only [wholePoints, List.getElem_zipWith, List.length_map]
  exact hr _ (List.getElem_mem _)

/-- **C03 (points).** Whatever the engine configuration, running the chunks and combining them gives
the un-chunked result. -/
theorem C03_points_chunking_invariant (cfg : Cfg) (hv : ValidCfg cfg)
    (mdl : List S → List (List T) → List (List R)) (g : S → T → R) (hl : LocalPoints mdl g)
    (md : List S) (pd : List (List T)) (nT : Nat)
    (hn : 1 ≤ md.length) (hlen : md.length = pd.length) (hr : Rect pd nT) :
    engineRun cfg (runPointsJob mdl md pd) md.length nT = some (wholePoints g md pd) := by
  obtain ⟨css, cts, h, h1, h2, h3, h4, _⟩ := calc_ok cfg hv md.length nT hn
  rw [engineRun, h]
  simp only [numpyRun]
  have hlenW : (wholePoints g md pd).length = md.length := by
    simp [wholePoints, hlen]
  refine combine_blocks (wholePoints g md pd) nT (wholePoints_rect g md pd nT hr) css cts
    (by rw [hlenW, h1]) h2 h3 h4 _ ?_
  intro i _ j _
  congr 1
  apply List.map_congr_left
  intro kb _
  rw [runPointsJob_block mdl g hl md pd hlen]

/-- **C03 (farm).** The same for a farm calculation (no targets, `n_targets = 0`). -/
theorem C03_farm_chunking_invariant (cfg : Cfg) (hv : ValidCfg cfg)
    (mdl : List S → List (List R)) (g : S → List R) (hl : LocalFarm mdl g)
    (md : List S) (hn : 1 ≤ md.length) :
    engineRun cfg (runFarmJob mdl md) md.length 0 = some (md.map g) := by
  obtain ⟨css, cts, h, h1, h2, h3, h4, h5, h6, _⟩ := calc_ok cfg hv md.length 0 hn
  have hcts : cts = [0] := by
    have he := h
    simp only [calcChunkSizes, bind, Except.bind, show ¬ (0 > 1) by omega, if_false, pure, Except.pure] at he
    split at he
    · cases he
    · split at he
      · cases he; rfl
      · cases he
  subst hcts
  rw [engineRun, h]
  simp only [numpyRun]
  have hb : ∀ b : Span × Span, runFarmJob mdl md b = slice b.1 (md.map g) := by
    intro b; rw [runFarmJob, hl, map_slice]
  rw [combine_jobs (fun b => slice b.1 (md.map g)) css [0] (fun s => slice s (md.map g))]
  · rw [vconcat, flatten_spans, h1, Nat.zero_add]
    have : slice (0, md.length) (md.map g) = md.map g := by
      have := slice_full (md.map g)
      rwa [List.length_map] at this
    rw [this]
    cases css with
    | nil => exact absurd rfl h3
    | cons c cs => simp [spans]
  · intro _ s; rfl
  · intro hne; simp at hne
  · intro i _ j _
    congr 1
    apply List.map_congr_left
    intro kb _
    rw [hb]

/-- **C03 (corollary).** Two arbitrary engine configurations, and the single chunk engine, agree. -/
theorem C03_engines_agree (cfg cfg' : Cfg) (hv : ValidCfg cfg) (hv' : ValidCfg cfg')
    (mdl : List S → List (List T) → List (List R)) (g : S → T → R) (hl : LocalPoints mdl g)
    (md : List S) (pd : List (List T)) (nT : Nat)
    (hn : 1 ≤ md.length) (hlen : md.length = pd.length) (hr : Rect pd nT) :
    engineRun cfg (runPointsJob mdl md pd) md.length nT
        = engineRun cfg' (runPointsJob mdl md pd) md.length nT ∧
    engineRun cfg (runPointsJob mdl md pd) md.length nT
        = singleRun (runPointsJob mdl md pd) md.length nT := by
  rw [C03_points_chunking_invariant cfg hv mdl g hl md pd nT hn hlen hr,
    C03_points_chunking_invariant cfg' hv' mdl g hl md pd nT hn hlen hr]
  refine ⟨rfl, ?_⟩
  have hM := wholePoints_rect g md pd nT hr
  have hlenW : (wholePoints g md pd).length = md.length := by simp [wholePoints, hlen]
  symm
  have := combine_blocks (wholePoints g md pd) nT hM [md.length] [nT] (by simp [hlenW]) (by simp)
    (by simp) (by simp) [((0, 0), runPointsJob mdl md pd ((0, md.length), (0, nT)))] ?_
  · exact this
  · intro i hi j hj
    have hi0 : i = 0 := by simpa using hi
    have hj0 : j = 0 := by simpa using hj
    subst hi0 hj0
    rw [runPointsJob_block mdl g hl md pd hlen]
    simp [jobs, jobsFrom, targetJobs, spans]

/-- the hypotheses are satisfiable, with several chunks in both directions -/
example : LocalPoints (fun md pd => wholePoints (fun a b => 10 * a + b) md pd) (fun a b : Nat => 10 * a + b)
    ∧ ValidCfg ⟨some 2, some 2, 4⟩ ∧ Rect [[1, 2, 3], [4, 5, 6], [7, 8, 9]] 3
    ∧ engineRun ⟨some 2, some 2, 4⟩
        (runPointsJob (fun md pd => wholePoints (fun a b => 10 * a + b) md pd) [1, 2, 3]
          [[1, 2, 3], [4, 5, 6], [7, 8, 9]]) 3 3
      = some [[11, 12, 13], [24, 25, 26], [37, 38, 39]] := by
  refine ⟨fun _ _ _ => rfl, ⟨by decide, by simp, by simp⟩, by simp [Rect], ?_⟩
  decide

/-! ### C04 -/

/-- **C04.** Let the chunk jobs finish in any order (any permutation of the submitted jobs, each
with its own result). The pool engine then returns what the sequential engine returns. -/
theorem C04_schedule_independent (run : Span × Span → List (List R)) (css cts : List Nat)
    (done : List (Key × List (List R)))
    (hdone : done.Perm ((jobs css cts).map fun kb => (kb.1, run kb.2))) :
    poolRun done css cts = numpyRun run css cts := by
  have hnd : (((jobs css cts).map fun kb => (kb.1, run kb.2)).map Prod.fst).Nodup := by
    rw [List.map_map]; exact nodup_jobs css cts
  have hlk : ∀ k, done.lookup k = ((jobs css cts).map fun kb => (kb.1, run kb.2)).lookup k :=
    fun k => (lookup_perm hdone.symm hnd k).symm
  have hres : ((List.range css.length).mapM fun i => (List.range cts.length).mapM fun j =>
      (done.lookup (i, j)).map fun r => ((i, j), r)) =
      some ((List.range css.length).map fun i => (List.range cts.length).map fun j =>
        ((i, j), run (((spans 0 css)[i]?).getD (0, 0), ((spans 0 cts)[j]?).getD (0, 0)))) := by
    rw [← mapM_some]
    apply mapM_congr'
    intro i hi
    rw [← mapM_some]
    apply mapM_congr'
    intro j hj
    have hi' : i < (spans 0 css).length := by rw [spans_length]; simpa using hi
    have hj' : j < (spans 0 cts).length := by rw [spans_length]; simpa using hj
    rw [hlk, lookup_jobs, List.getElem?_eq_getElem hi', List.getElem?_eq_getElem hj']
    rfl
  rw [poolRun, hres, numpyRun]
  simp only [bind, Option.bind]
  have heq : ∀ i < css.length, ∀ j < cts.length,
      (((List.range css.length).map fun i => (List.range cts.length).map fun j =>
        ((i, j), run (((spans 0 css)[i]?).getD (0, 0), ((spans 0 cts)[j]?).getD (0, 0)))).flatten).lookup (i, j)
      = ((jobs css cts).map fun kb => (kb.1, run kb.2)).lookup (i, j) := by
    intro i hi j hj
    have hi' : i < (spans 0 css).length := by rw [spans_length]; exact hi
    have hj' : j < (spans 0 cts).length := by rw [spans_length]; exact hj
    rw [lookup_jobs, List.getElem?_eq_getElem hi', List.getElem?_eq_getElem hj']
    simp only [Option.bind_some, Option.map_some]
    rw [lookup_mem]
    · simp only [List.mem_flatten, List.mem_map, List.mem_range]
      refine ⟨_, ⟨i, hi, rfl⟩, ?_⟩
      simp only [List.mem_map, List.mem_range]
      refine ⟨j, hj, ?_⟩
      rw [List.getElem?_eq_getElem hi', List.getElem?_eq_getElem hj']
      rfl
    · rw [List.map_flatten, List.map_map]
      have : (List.map Prod.fst ∘ fun i : Nat => (List.range cts.length).map fun j : Nat =>
          ((i, j), run (((spans 0 css)[i]?).getD (0, 0), ((spans 0 cts)[j]?).getD (0, 0))))
          = fun i => (List.range cts.length).map fun j => (i, j) := by
        funext i; simp [Function.comp_def]
      rw [this, ← List.flatMap_def]
      exact List.nodup_range.product List.nodup_range
  unfold combine
  have hrow : ∀ i ∈ List.range css.length, ∀ (l₁ l₂ : List (Key × List (List R))),
      (∀ j < cts.length, l₁.lookup (i, j) = l₂.lookup (i, j)) →
      (if cts.length = 1 then l₁.lookup (i, 0) else do
        let tres ← (List.range cts.length).mapM fun j => l₁.lookup (i, j)
        hconcat tres) = (if cts.length = 1 then l₂.lookup (i, 0) else do
        let tres ← (List.range cts.length).mapM fun j => l₂.lookup (i, j)
        hconcat tres) := by
    intro i _ l₁ l₂ h
    split
    · rename_i h1; exact h 0 (by omega)
    · rw [mapM_congr' (g := fun j => l₂.lookup (i, j))]
      intro j hj; exact h j (by simpa using hj)
  rw [mapM_congr' (fun i hi => hrow i hi _ _ (fun j hj => heq i (by simpa using hi) j hj))]

/-- a genuinely reordered completion of four jobs -/
example : poolRun [((1, 1), [[4]]), ((0, 1), [[2]]), ((1, 0), [[3]]), ((0, 0), [[1]])] [1, 1] [1, 1]
    = some [[1, 2], [3, 4]] := by decide

/-! ### C05 -/

/-- **C05.** `PoolEngine.map` is `List.map`, for every number of processes and every completion
order of the submitted sub-lists. -/
theorem C05_pool_map_eq_map {α β : Type} (nProcs : Nat) (hp : 1 ≤ nProcs) (f : α → β) (inputs : List α)
    (done : List (List β) → List (Nat × List β))
    (hdone : ∀ rs, (done rs).Perm (rs.zipIdx.map fun x => (x.2, x.1))) :
    poolMap nProcs f inputs done = some (inputs.map f) := by
  match inputs with
  | [] => rfl
  | [x] => rfl
  | x :: y :: xs =>
    let inputs := x :: y :: xs
    show poolMap nProcs f inputs done = some (inputs.map f)
    have hk : min nProcs inputs.length ≠ 0 := by simp [inputs]; omega
    have hmod := Nat.mod_lt inputs.length (Nat.pos_of_ne_zero hk)
    have hunf : poolMap nProcs f inputs done =
        (((List.range (min nProcs inputs.length)).mapM fun i =>
          (done ((arraySplit inputs (min nProcs inputs.length)).map fun sub => sub.map f)).lookup i).map
            List.flatten) := by
      simp only [poolMap, inputs]; rw [if_neg hk]
    rw [hunf]
    generalize hkk : min nProcs inputs.length = k at *
    have hlen : (arraySplit inputs k).length = k := by
      simp only [arraySplit, List.length_map, spans_length, List.length_append, List.length_replicate]
      omega
    generalize hrs : ((arraySplit inputs k).map fun sub => sub.map f) = rs
    have hrl : rs.length = k := by rw [← hrs, List.length_map, hlen]
    have hz : ((rs.zipIdx.map fun x => (x.2, x.1)).map Prod.fst).Nodup := by
      rw [List.map_map]
      have : (Prod.fst ∘ fun x : List β × Nat => (x.2, x.1)) = Prod.snd := by funext x; rfl
      rw [this, List.zipIdx_map_snd]
      exact List.nodup_range'
    have hl : ((List.range k).mapM fun i => (done rs).lookup i) = some rs := by
      have h1 : ((List.range k).mapM fun i => (done rs).lookup i)
          = (List.range rs.length).mapM fun i => (rs[i]?).bind some := by
        rw [hrl]
        apply mapM_congr'
        intro i hi
        have hi' : i < rs.length := by rw [hrl]; simpa using hi
        rw [← lookup_perm (hdone rs).symm hz, List.getElem?_eq_getElem hi', Option.bind_some,
          lookup_mem hz]
        simp only [List.mem_map, Prod.exists, Prod.mk.injEq]
        exact ⟨rs[i], i, by
          rw [List.mem_zipIdx_iff_getElem?]; simp [hi'], rfl, rfl⟩
      rw [h1, mapM_range_getElem]
      have := mapM_some rs id
      simpa using this
    rw [hl, Option.map_some, ← hrs, ← List.map_flatten]
    congr 2
    rw [arraySplit, flatten_spans]
    have hsum : (List.replicate (inputs.length % k) (inputs.length / k + 1) ++
        List.replicate (k - inputs.length % k) (inputs.length / k)).sum = inputs.length := by
      rw [List.sum_append, List.sum_replicate_nat, List.sum_replicate_nat]
      have h0 := Nat.div_add_mod inputs.length k
      generalize inputs.length % k = r at *
      generalize inputs.length / k = q at *
      have : (k - r) * q = k * q - r * q := Nat.sub_mul k r q
      have h2 : r * q ≤ k * q := Nat.mul_le_mul_right q (by omega)
      rw [this, Nat.mul_add]
      omega
    rw [hsum, Nat.zero_add, slice_full]

example : poolMap 3 (· * 2) [1, 2, 3, 4, 5, 6, 7] (fun rs => (rs.zipIdx.map fun x => (x.2, x.1)).reverse)
    = some [2, 4, 6, 8, 10, 12, 14] := by decide

/-! ### C06 -/

/-- The value a user reads for state `i` and target/turbine `j` from the resulting Dataset variable. -/
def OutVar.at (v : OutVar R) (i j : Nat) : Option R :=
  match v with
  | .full d => (d[i]?).bind (·[j]?)
  | .perState d => d[i]?

theorem width_of_rect {d : List (List R)} {w : Nat} (hne : d ≠ []) (hr : ∀ r ∈ d, r.length = w) :
    width d = w := by
  cases d with
  | nil => exact absurd rfl hne
  | cons r d => simp [width, hr r (by simp)]

/-- **C06 (points).** A variable that each chunk returned in full (`nT` target columns) is handed
out unchanged; a per-state variable, which each of the `nkt` target chunks returned as one column,
is handed out as one value per state, the same for all targets. -/
theorem C06_points_weights (nT nkt : Nat) (hk : 1 ≤ nkt) (hkT : nkt ≤ nT) :
    (∀ d : List (List R), d ≠ [] → Rect d nT → ∀ i j, OutVar.at (reducePoints nT nkt d) i j = (d[i]?).bind (·[j]?)) ∧
    (∀ w : List R, w ≠ [] → ∀ i j, j < nT →
      OutVar.at (reducePoints nT nkt (w.map fun x => List.replicate nkt x)) i j = w[i]?) := by
  constructor
  · intro d hne hr i j
    have hw := width_of_rect hne hr
    have : ¬ (nT > nkt ∧ width d = nkt) := by rw [hw]; omega
    rw [reducePoints, if_neg this]; rfl
  · intro w hne i j hj
    have hw : width (w.map fun x => List.replicate nkt x) = nkt :=
      width_of_rect (by simpa using hne) (by simp)
    by_cases hlt : nT > nkt
    · rw [reducePoints, if_pos ⟨hlt, hw⟩]
      simp only [OutVar.at]
      congr 1
      rw [List.filterMap_map]
      have : (List.head? ∘ fun x : R => List.replicate nkt x) = some := by
        funext x
        obtain ⟨m, rfl⟩ : ∃ m, nkt = m + 1 := ⟨nkt - 1, by omega⟩
        simp [List.replicate_succ]
      rw [this, List.filterMap_some]
    · rw [reducePoints, if_neg (by omega)]
      simp only [OutVar.at, List.getElem?_map]
      cases h : w[i]? with
      | none => rfl
      | some x =>
        simp only [Option.map_some, Option.bind_some]
        rw [List.getElem?_replicate, if_pos (by omega)]

/-- **C06 (farm).** The same for farm variables: full variables have `nTurb` columns, per-state
variables have one. -/
theorem C06_farm_weights (nTurb : Nat) (hT : 1 ≤ nTurb) :
    (∀ d : List (List R), d ≠ [] → Rect d nTurb → ∀ i j, OutVar.at (reduceFarm nTurb d) i j = (d[i]?).bind (·[j]?)) ∧
    (∀ w : List R, w ≠ [] → ∀ i j, j < nTurb → OutVar.at (reduceFarm nTurb (w.map fun x => [x])) i j = w[i]?) := by
  constructor
  · intro d hne hr i j
    have hw := width_of_rect hne hr
    have : ¬ (width d = 1 ∧ nTurb > 1) := by rw [hw]; omega
    rw [reduceFarm, if_neg this]; rfl
  · intro w hne i j hj
    have hw : width (w.map fun x => [x]) = 1 := width_of_rect (by simpa using hne) (by simp)
    by_cases h1 : nTurb > 1
    · rw [reduceFarm, if_pos ⟨hw, h1⟩]
      simp only [OutVar.at]
      congr 1
      rw [List.filterMap_map]
      have : (List.head? ∘ fun x : R => [x]) = some := by funext x; rfl
      rw [this, List.filterMap_some]
    · rw [reduceFarm, if_neg (by omega)]
      have : j = 0 := by omega
      subst this
      simp only [OutVar.at, List.getElem?_map]
      cases h : w[i]? <;> simp

/-- the weights of a points run are what `combine_results` sees for a per-state chunk variable:
each of the `nkt` target chunks contributes one column -/
theorem C06_weights_combined (css cts : List Nat) (w : List R) (hs : css.sum = w.length)
    (hcs : css ≠ []) (hct : cts ≠ []) :
    numpyRun (fun b => (slice b.1 w).map fun x => [x]) css cts
      = some (w.map fun x => List.replicate cts.length x) := by
  rw [numpyRun, combine_jobs (fun b => (slice b.1 w).map fun x => [x]) css cts
    (fun s => (slice s w).map fun x => List.replicate cts.length x) ?_ ?_ _ (fun _ _ _ _ => rfl)]
  · rw [vconcat]
    have : ((spans 0 css).map fun s => (slice s w).map fun x => List.replicate cts.length x)
        = ((spans 0 css).map fun s => slice s (w.map fun x => List.replicate cts.length x)) := by
      apply List.map_congr_left; intro s _; rw [map_slice]
    rw [this, flatten_spans, hs, Nat.zero_add]
    have h2 := slice_full (w.map fun x => List.replicate cts.length x)
    rw [List.length_map] at h2
    rw [h2]
    cases css with
    | nil => exact absurd rfl hcs
    | cons c cs => simp [spans]
  · intro h1 s; simp [h1]
  · intro _ s
    have key : ∀ (ts : List Span), ts ≠ [] → hconcat (ts.map fun _ => (slice s w).map fun x => [x])
        = some ((slice s w).map fun x => List.replicate ts.length x) := by
      intro ts
      induction ts with
      | nil => intro h; exact absurd rfl h
      | cons t ts ih =>
        intro _
        cases ts with
        | nil => simp [hconcat]
        | cons t' ts =>
          have := ih (by simp)
          simp only [List.map_cons] at this ⊢
          rw [hconcat, this]
          · simp only [List.length_map, if_true]
            rw [List.zipWith_map, List.zipWith_self]
            simp [List.replicate_succ]
          · simp
    have := key (spans 0 cts) (by
      intro h0
      have := spans_length 0 cts
      rw [h0] at this
      exact hct (List.length_eq_zero_iff.1 this.symm))
    rw [spans_length] at this
    exact this

/-- **C04 (no silent repair).** Two chunks of targets whose results have different numbers of states are not combined: an error is raised -/
theorem C04_rows_must_match (results : List (Key × List (List R))) (a b : List (List R)) (ha : results.lookup (0, 0) = some a)
    (hb : results.lookup (0, 1) = some b) (hne : a.length ≠ b.length) : combine results 1 2 = none := by
  have h : (List.range 2).mapM (fun j => results.lookup (0, j)) = some [a, b] := by
    simp [List.range_succ, ha, hb]
  simp [combine, List.range_succ, ha, hb, hconcat, hne]

example : reducePoints 5 2 [[3, 3], [4, 4]] = .perState [3, 4] ∧
    reducePoints 2 2 [[3, 7], [4, 8]] = .full [[3, 7], [4, 8]] := by decide

end Foxes.Props.Run
