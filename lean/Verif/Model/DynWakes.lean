import Mathlib.Data.List.Basic
import Mathlib.Algebra.Order.Field.Basic
/-
Model of time dependent wakes (foxes/models/wake_frames/dynamic_wakes.py): trajectories of the wake of one turbine, computed chunk by chunk, exchanged through
the chunk store (foxes/core/algorithm.py, engines/pool.py, engines/single.py), and the search for the nearest wake point. Simplified: points are of any type `P`, lengths of any
ordered field `K`; the ambient wind of a state moves a point (`wind`, the sum of the point and the wind times the time step) by a length (`len`), without NaN; so an entry of the
table is either a point with its length or NaN (`none`).
-/
namespace Foxes.DynWakes

/-- what the wake of a turbine depends on (dynamic_wakes.py:152-158, 197-203) -/
structure Par (P K : Type) where
  /-- the turbine's position in each state, `rxyh` -/
  rotor : ℕ → P
  /-- `pts + uv * dt` -/
  wind : ℕ → P → P
  /-- `norm(uv * dt)` -/
  len : ℕ → P → K
  maxAge : ℕ
  maxLen : K

/-- rows are the wakes that start in the chunk's states, columns are ages (dynamic_wakes.py:169-173) -/
abbrev Table (P K : Type) := ℕ → ℕ → Option (P × K)

variable {P K : Type} [Field K] [LinearOrder K]

/-- one step of a point in state `t` (dynamic_wakes.py:201-206, 288-300) -/
def move (par : Par P K) (t : ℕ) (e : P × K) : P × K := (par.wind t e.1, e.2 + par.len t e.1)

/-- the table before the first step (dynamic_wakes.py:169-173) -/
def start (par : Par P K) (i0 n : ℕ) : Table P K := fun k a => if k < n ∧ a = 0 then some (par.rotor (i0 + k), 0) else none

/-- one pass of the loop over ages (dynamic_wakes.py:179-206): row `k` moves in state `i0 + age + k`, rows without such a state in the chunk stay -/
def ageStep (par : Par P K) (i0 n age : ℕ) (T : Table P K) : Table P K :=
  fun k a => if a = age + 1 ∧ k < n - age then (T k age).map (move par (i0 + age + k)) else T k a

/-- the test that ends the loop (dynamic_wakes.py:208-211) -/
def longEnough (par : Par P K) (n age : ℕ) (T : Table P K) : Bool :=
  decide (age + 2 < par.maxAge) && (List.range n).all (fun k => match T k (age + 1) with | none => true | some e => decide (par.maxLen ≤ e.2))

/-- the loop over ages (dynamic_wakes.py:179-213); `fuel` counts the passes that are left of `range(max_age - 1)` -/
def ageLoop (par : Par P K) (i0 n : ℕ) : ℕ → ℕ → Table P K → Table P K
  | 0, _, T => T
  | fuel + 1, age, T =>
    if age = n then T
    else
      let T' := ageStep par i0 n age T
      if longEnough par n age T' then T' else ageLoop par i0 n fuel (age + 1) T'

/-- wakes that start within the chunk (dynamic_wakes.py:168-214) -/
def ownWakes (par : Par P K) (i0 n : ℕ) : Table P K := ageLoop par i0 n (par.maxAge - 1) 0 (start par i0 n)

/-- the chunk store, restricted to this turbine's entries: chunks (first state, number of states), tables, updates (from chunk, for chunk) -/
structure Store (P K : Type) where
  cells : List (ℕ × ℕ)
  data : ℕ → Option (Table P K)
  upd : ℕ → ℕ → Option (Table P K)

/-- an empty store -/
def Store.empty : Store P K := ⟨[], fun _ => none, fun _ _ => none⟩

/-- whether `new` has an entry that `old` does not have: `np.any(np.isnan(old) & ~np.isnan(new))` -/
def anyNew (par : Par P K) (n : ℕ) (old new : Table P K) : Bool :=
  (List.range n).any (fun k => (List.range par.maxAge).any (fun a => (old k a).isNone && (new k a).isSome))

/-- `np.where(isnan(data) & ~isnan(u), u, data)` (dynamic_wakes.py:225-227) -/
def fill (T u : Table P K) : Table P K := fun k a => match T k a with | none => u k a | some e => some e

/-- updates from future chunks (dynamic_wakes.py:219-231), for the chunks `js` -/
def applyUpdates (par : Par P K) (upd : ℕ → Option (Table P K)) (i0 n : ℕ) : List ℕ → Table P K × Bool → Table P K × Bool
  | [], r => r
  | j :: js, (T, b) =>
    if i0 < j then
      match upd j with
      | some u => applyUpdates par upd i0 n js (if anyNew par n T u then (fill T u, true) else (T, b))
      | none => applyUpdates par upd i0 n js (T, b)
    else applyUpdates par upd i0 n js (T, b)

/-- the loop over the chunk's states for one wake of an earlier chunk (dynamic_wakes.py:272-311): `m` states are left, the point has age `a` and is in row `k` -/
def carry (par : Par P K) (k : ℕ) : ℕ → ℕ → ℕ → P × K → Table P K → Table P K
  | 0, _, _, _, T => T
  | m + 1, t, a, e, T =>
    let e' := move par t e
    let T' : Table P K := fun k' a' => if k' = k ∧ a' = a + 1 then some e' else T k' a'
    if m ≠ 0 ∧ a + 1 < par.maxAge - 1 then carry par k m (t + 1) (a + 1) e' T' else T'

/-- one wake of an earlier chunk: is it at its turn (dynamic_wakes.py:248-259), and if so, its points in this chunk's states -/
def carryRow (par : Par P K) (i0 n h : ℕ) (T : Table P K) (k : ℕ) : Table P K :=
  let ag := i0 - (h + k)
  if ag < par.maxAge - 1 then
    match T k ag, T k (ag + 1) with
    | some e, none => if e.2 ≤ par.maxLen then carry par k n i0 ag e T else T
    | _, _ => T
  else T

/-- all wakes of an earlier chunk (dynamic_wakes.py:245-311) -/
def carryChunk (par : Par P K) (i0 n h hn : ℕ) (T : Table P K) : Table P K := (List.range hn).foldl (carryRow par i0 n h) T

/-- the entries that are new (dynamic_wakes.py:313-316) -/
def newPart (old new : Table P K) : Table P K := fun k a => if (old k a).isNone then new k a else none

/-- the earlier chunks, nearest first, until one is not there or has no table (dynamic_wakes.py:233-242; algorithm.py:506-519) -/
def earlier (S : Store P K) : ℕ → ℕ → List (ℕ × ℕ × Table P K)
  | 0, _ => []
  | fuel + 1, i0 =>
    match S.cells.find? (fun c => decide (c.1 + c.2 = i0)) with
    | none => []
    | some (h, m) =>
      match S.data h with
      | none => []
      | some T => (h, m, T) :: earlier S fuel h

/-- what a chunk's run leaves behind -/
structure Out (P K : Type) where
  store : Store P K
  blocked : Bool
  /-- tables of earlier chunks and of this chunk, as used for the wakes (dynamic_wakes.py:330, 338) -/
  tables : List (ℕ × ℕ × Table P K)

/-- `_calc_wakes` (dynamic_wakes.py:149-338) of the chunk of `n` states from `i0` -/
def runChunk (par : Par P K) (S : Store P K) (i0 n : ℕ) : Out P K :=
  let cells := if S.cells.any (fun c => decide (c.1 = i0)) then S.cells else S.cells ++ [(i0, n)]
  let r0 : Table P K × Bool := match S.data i0 with | some T => (T, false) | none => (ownWakes par i0 n, true)
  let r1 := applyUpdates par (fun j => S.upd j i0) i0 n (cells.map Prod.fst) r0
  let S1 : Store P K := ⟨cells, fun h => if h = i0 then some r1.1 else S.data h, fun j h => if h = i0 ∧ i0 < j then none else S.upd j h⟩
  let before := earlier S1 (i0 + 1) i0
  let ext := before.map (fun q => (q.1, q.2.1, carryChunk par i0 n q.1 q.2.1 q.2.2))
  let changed := (before.zip ext).filter (fun z => anyNew par z.1.2.1 z.1.2.2 z.2.2.2)
  let upd2 : ℕ → ℕ → Option (Table P K) := fun j h =>
    if j = i0 then
      match changed.find? (fun z => decide (z.1.1 = h)) with
      | some z => some (newPart z.1.2.2 z.2.2.2)
      | none => S1.upd j h
    else S1.upd j h
  let S2 : Store P K := ⟨S1.cells, S1.data, upd2⟩
  ⟨S2, r1.2 || !changed.isEmpty, ext.reverse ++ [(i0, n, r1.1)]⟩

/-- engines that run chunks in other processes return the chunk's own entries only (pool.py:10-16, 247-256) -/
def mergeCell (S R : Store P K) (i0 n : ℕ) : Store P K :=
  ⟨if S.cells.any (fun c => decide (c.1 = i0)) then S.cells else S.cells ++ [(i0, n)],
    fun h => if h = i0 then R.data h else S.data h, fun j h => if j = i0 then R.upd j h else S.upd j h⟩

/-- one iteration with a shared store, chunk after chunk (engines/numpy.py:142-175): the new store, and whether any chunk blocked the convergence -/
def roundShared (par : Par P K) (cs : List (ℕ × ℕ)) (S : Store P K) : Store P K × Bool :=
  cs.foldl (fun r c => ((runChunk par r.1 c.1 c.2).store, r.2 || (runChunk par r.1 c.1 c.2).blocked)) (S, false)

/-- one iteration in other processes (engines/pool.py:10-16, 247-290): all chunks see the store of the iteration's start, and hand back their own entries -/
def roundRemote (par : Par P K) (cs : List (ℕ × ℕ)) (S : Store P K) : Store P K × Bool :=
  (cs.foldl (fun X c => mergeCell X (runChunk par S c.1 c.2).store c.1 c.2) S, cs.any (fun c => (runChunk par S c.1 c.2).blocked))

/-- rounds of `calc_farm` if the convergence is blocked all the time (algorithms/iterative/iterative.py:74, 295-299, 324-327): `max_it` is `2 + n_turbines**2` by default, the loop does `max_it + 1`
iterations, and a final one follows -/
def defaultRounds (nTurbines : ℕ) : ℕ := (2 + nTurbines ^ 2) + 1 + 1

/-- the entry of the wake that started in state `i`, at age `a` (dynamic_wakes.py:338, the concatenated tables) -/
def entry (tables : List (ℕ × ℕ × Table P K)) (i a : ℕ) : Option (P × K) :=
  (tables.find? (fun q => decide (q.1 ≤ i ∧ i < q.1 + q.2.1))).bind (fun q => q.2.2 (i - q.1) a)

/-- candidates for a point in state `t` (dynamic_wakes.py:383-395): ages with a wake point -/
def candidates (par : Par P K) (tables : List (ℕ × ℕ × Table P K)) (t : ℕ) : List (ℕ × (P × K)) :=
  (List.range par.maxAge).filterMap (fun a => if a ≤ t then (entry tables (t - a) a).map (fun e => (a, e)) else none)

/-- `np.argmin`: the first of the smallest -/
def nearest (d : P → K) : List (ℕ × (P × K)) → Option (ℕ × (P × K))
  | [] => none
  | x :: l =>
    match nearest d l with
    | none => some x
    | some y => if d x.2.1 ≤ d y.2.1 then some x else some y

/-- `wake_si` (dynamic_wakes.py:377-400): the state in which the wake was created that is nearest to the point in state `t`; the state itself if there is no wake point -/
def wakeState (par : Par P K) (tables : List (ℕ × ℕ × Table P K)) (d : P → K) (t : ℕ) : ℕ :=
  match nearest d (candidates par tables t) with
  | none => t
  | some x => t - x.1

end Foxes.DynWakes
