import Verif.Model.Chunks
/-
Model of splitting a calculation into chunks, running the chunk jobs and combining the results:
foxes/engines/pool.py:91-131 (`map`), 133-297 (`run_calculation`),
foxes/engines/numpy.py:49-197, foxes/engines/single.py:72-171,
foxes/core/engine.py:320-419 (`get_chunk_input_data`), 421-533 (`combine_results`).

Simplifications: one output variable; a two dimensional array is the list of its rows (axis 0 =
states, axis 1 = targets or turbines; the third axis `tpoint` has length one for points,
algorithm.py:425-432). The chunk store is modelled in `Verif.Model.ChunkStore`.
-/
namespace Foxes.Run
open Foxes.Chunks

variable {S T R : Type}

abbrev Key := Nat × Nat
abbrev Span := Nat × Nat

/-- numpy slice `xs[i0:i1]` for `0 ≤ i0 ≤ i1` (engine.py:362-363). -/
def slice (s : Span) (xs : List α) : List α := (xs.drop s.1).take (s.2 - s.1)

/-- The running `i0 .. i1 = i0 + chunk_sizes[i]` of the two nested loops
(pool.py:225-230, 256, 261; numpy.py:142-147, 176, 181). -/
def spans (i0 : Nat) : List Nat → List Span
  | [] => []
  | c :: cs => (i0, i0 + c) :: spans (i0 + c) cs

/-- The inner loop over target chunks for states chunk `i` (pool.py:229-256). -/
def targetJobs (i : Nat) (s : Span) (j : Nat) : List Span → List (Key × (Span × Span))
  | [] => []
  | t :: ts => ((i, j), (s, t)) :: targetJobs i s (j + 1) ts

/-- The outer loop over states chunks (pool.py:226-261): all submitted jobs in submission order. -/
def jobsFrom (ts : List Span) (i : Nat) : List Span → List (Key × (Span × Span))
  | [] => []
  | s :: ss => targetJobs i s 0 ts ++ jobsFrom ts (i + 1) ss

def jobs (css cts : List Nat) : List (Key × (Span × Span)) :=
  jobsFrom (spans 0 cts) 0 (spans 0 css)

/-- `get_chunk_input_data` + `model.calculate` for a points calculation: model data are sliced in
states, point data in states and targets (engine.py:364-419, data.py:285-295, 757-770). -/
def runPointsJob (mdl : List S → List (List T) → List (List R)) (md : List S) (pd : List (List T))
    (b : Span × Span) : List (List R) :=
  mdl (slice b.1 md) ((slice b.1 pd).map (slice b.2))

/-- the same for a farm calculation: no point data (engine.py:373-398). -/
def runFarmJob (mdl : List S → List (List R)) (md : List S) (b : Span × Span) : List (List R) :=
  mdl (slice b.1 md)

/-- `np.concatenate(_, axis=1)`; raises for an empty list and for different numbers of rows. -/
def hconcat : List (List (List R)) → Option (List (List R))
  | [] => none
  | [a] => some a
  | a :: rest =>
      match hconcat rest with
      | none => none
      | some b => if a.length = b.length then some (List.zipWith (· ++ ·) a b) else none

/-- `np.concatenate(_, axis=0)`; raises for an empty list. -/
def vconcat (xs : List (List (List R))) : Option (List (List R)) :=
  if xs.isEmpty then none else some xs.flatten

/-- `combine_results` for one variable (engine.py:469-503): both branches on `n_chunks_targets`.
`none` stands for a raised exception. -/
def combine (results : List (Key × List (List R))) (nks nkt : Nat) : Option (List (List R)) := do
  let rows ← (List.range nks).mapM fun i =>
    if nkt = 1 then results.lookup (i, 0)
    else do
      let tres ← (List.range nkt).mapM fun j => results.lookup (i, j)
      hconcat tres
  vconcat rows

/-- NumpyEngine.run_calculation (numpy.py:133-197): sequential loop over the jobs. -/
def numpyRun (run : Span × Span → List (List R)) (css cts : List Nat) : Option (List (List R)) :=
  combine ((jobs css cts).map fun kb => (kb.1, run kb.2)) css.length cts.length

/-- PoolEngine.run_calculation (pool.py:217-297). `done` lists the finished jobs in the order of
their completion; `self._result(jobs.pop(key))` (pool.py:278-281) reads the entry of `key`. -/
def poolRun (done : List (Key × List (List R))) (css cts : List Nat) : Option (List (List R)) := do
  let results ← (List.range css.length).mapM fun i =>
    (List.range cts.length).mapM fun j => (done.lookup (i, j)).map fun r => ((i, j), r)
  combine results.flatten css.length cts.length

/-- SingleChunkEngine.run_calculation (single.py:141-171). -/
def singleRun (run : Span × Span → List (List R)) (n nT : Nat) : Option (List (List R)) :=
  combine [((0, 0), run ((0, n), (0, nT)))] 1 1

/-- What `run_calculation` of the chunking engines does: chunk sizes, then the loop. A failing
`calc_chunk_sizes` is an exception as well. -/
def engineRun (cfg : Cfg) (run : Span × Span → List (List R)) (n nT : Nat) :
    Option (List (List R)) :=
  match calcChunkSizes cfg n nT with
  | .error _ => none
  | .ok (css, cts) => numpyRun run css cts

/-! ### Reduction of weights (engine.py:517-530) -/

/-- A variable of the resulting Dataset: full two dimensional, or reduced to dims `(state,)`. -/
inductive OutVar (R : Type)
  | full (d : List (List R))
  | perState (d : List R)
deriving DecidableEq, Repr

/-- `d.shape[1]` of a non-empty array. -/
def width (d : List (List R)) : Nat := (d.head?.map List.length).getD 0

/-- engine.py:519-525: farm variable with dims `(state, turbine)`. -/
def reduceFarm (nTurb : Nat) (d : List (List R)) : OutVar R :=
  if width d = 1 ∧ nTurb > 1 then .perState (d.filterMap List.head?) else .full d

/-- engine.py:526-530: points variable with dims `(state, target, tpoint)`, `tpoint` of size 1. -/
def reducePoints (nTargets nkt : Nat) (d : List (List R)) : OutVar R :=
  if nTargets > nkt ∧ width d = nkt then .perState (d.filterMap List.head?) else .full d

/-! ### `PoolEngine.map` -/

/-- `np.array_split(xs, k)`: `len % k` pieces of size `len / k + 1`, the rest of size `len / k`. -/
def arraySplit (xs : List α) (k : Nat) : List (List α) :=
  (spans 0 (List.replicate (xs.length % k) (xs.length / k + 1) ++
    List.replicate (k - xs.length % k) (xs.length / k))).map fun s => slice s xs

/-- pool.py:91-131. `done` maps the index of a submitted job to its result (any completion order);
`none` models the exceptions (`array_split` with zero sections, missing result). -/
def poolMap {α β : Type} (nProcs : Nat) (f : α → β) (inputs : List α)
    (done : List (List β) → List (Nat × List β)) : Option (List β) :=
  match inputs with
  | [] => some []
  | [x] => some [f x]
  | _ =>
    let k := min nProcs inputs.length
    if k = 0 then none
    else
      let d := done ((arraySplit inputs k).map fun sub => sub.map f)
      ((List.range k).mapM fun i => d.lookup i).map List.flatten

end Foxes.Run
