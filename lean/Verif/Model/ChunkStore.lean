/-
Model of the chunk store (foxes/core/algorithm.py:436-648) and of its use by concurrently running
chunk calculations (foxes/engines/pool.py:10-16, foxes/engines/futures.py).
-/
namespace Foxes.ChunkStore

/-- One chunk in the store: its key `(i0, t0)`, its extent and its named entries
(algorithm.py:551-565). -/
structure Chunk (D : Type) where
  i0 : Nat
  t0 : Nat
  nStates : Nat
  nTargets : Nat
  entries : List (String × D)
deriving Repr

/-- `self.chunk_store.values()`, in insertion order; keys are unique. -/
abbrev Store (D : Type) := List (Chunk D)

inductive Err
  | keyError
  | indexError   -- `inds[:, 0]` of an empty store, algorithm.py:476-493
deriving DecidableEq, Repr

variable {D : Type}

/-- algorithm.py:506-519: the `while prev_s > 0` walk. `inds[:, 1]` is `i0 + n_states`. -/
def walkStates (st : Store D) (t0 : Nat) : Nat → Nat × Nat → Option (Nat × Nat)
  | 0, r => some r
  | k + 1, (i0, _) =>
      match st.find? (fun c => c.i0 + c.nStates = i0 ∧ c.t0 = t0) with
      | none => none
      | some c => walkStates st t0 k (i0 - c.nStates, c.nStates)

/-- algorithm.py:491-504: the `while prev_t > 0` walk. `inds[:, 4]` is `t0 + n_targets`. -/
def walkTargets (st : Store D) (i0 : Nat) : Nat → Nat × Nat → Option (Nat × Nat)
  | 0, r => some r
  | k + 1, (t0, _) =>
      match st.find? (fun c => c.i0 = i0 ∧ c.t0 + c.nTargets = t0) with
      | none => none
      | some c => walkTargets st i0 k (t0 - c.nTargets, c.nTargets)

/-- `find_chunk_in_store` (algorithm.py:436-521) for the chunk `(i0, n, t0, nT)` of the running
calculation. `.ok none` is the return value `None` (`error=False`). -/
def findChunk (st : Store D) (q : Nat × Nat × Nat × Nat) (prevS prevT : Nat) (error : Bool) :
    Except Err (Option (Nat × Nat × Nat × Nat)) :=
  let (i0, n, t0, nT) := q
  if prevS > 0 ∨ prevT > 0 then
    if st.isEmpty then .error .indexError
    else
      match walkTargets st i0 prevT (t0, nT) with
      | none => if error then .error .keyError else .ok none
      | some (t0, nT) =>
        match walkStates st t0 prevS (i0, n) with
        | none => if error then .error .keyError else .ok none
        | some (i0, n) => .ok (some (i0, n, t0, nT))
  else .ok (some (i0, n, t0, nT))

/-- `add_to_chunk_store` (algorithm.py:523-565): the extent is recorded only when the key is new;
the entry is set or overwritten. -/
def add (st : Store D) (q : Nat × Nat × Nat × Nat) (name : String) (d : D) : Store D :=
  let (i0, n, t0, nT) := q
  let st := if st.any (fun c => c.i0 = i0 ∧ c.t0 = t0) then st
    else st ++ [{ i0 := i0, t0 := t0, nStates := n, nTargets := nT, entries := [] }]
  st.map fun c => if c.i0 = i0 ∧ c.t0 = t0 then
    { c with entries := (name, d) :: c.entries.filter (fun e => e.1 ≠ name) } else c

/-- `get_from_chunk_store` (algorithm.py:567-623), data only. -/
def get (st : Store D) (q : Nat × Nat × Nat × Nat) (name : String) (prevS prevT : Nat) (error : Bool) :
    Except Err (Option D) :=
  match findChunk st q prevS prevT error with
  | .error e => .error e
  | .ok none => .ok none
  | .ok (some (i0, _, t0, _)) =>
      match (st.find? (fun c => c.i0 = i0 ∧ c.t0 = t0)).bind (fun c => c.entries.lookup name) with
      | some d => .ok (some d)
      | none => if error then .error .keyError else .ok none

/-! ### Concurrent chunk calculations sharing one algorithm object -/

/-- The algorithm object as seen by threads: `__chunk_store` is a reference to a dictionary object;
dictionaries are numbered, `0` is the one handed to all jobs (pool.py:244-252). A dictionary is
represented by the list of chunk keys it holds. -/
structure Shared where
  ptr : Nat
  heap : Nat → List Nat
  fresh : Nat

/-- A worker runs `_run` (pool.py:10-16): it installs the store, the rotor model adds this chunk's
entry (rotor_model.py:391-395), the wakes model reads it (farm_wakes_calc.py:62-64), then the store is taken
if the run is iterative. -/
inductive Pc
  | reset | add | get | take | done | failed
deriving DecidableEq, Repr

/-- one atomic step of worker `w` -/
def workerStep (iterative : Bool) (w : Nat) (pc : Pc) (s : Shared) : Pc × Shared :=
  match pc with
  | .reset => (.add, { s with ptr := 0 })
  | .add => (.get, { s with heap := fun d => if d = s.ptr then w :: s.heap d else s.heap d })
  | .get => if w ∈ s.heap s.ptr then (.take, s) else (.failed, s)
  | .take =>
      if iterative then
        (.done, { ptr := s.fresh, heap := fun d => if d = s.fresh then [] else s.heap d, fresh := s.fresh + 1 })
      else (.done, s)
  | .done => (.done, s)
  | .failed => (.failed, s)

/-- Threads: all workers share one algorithm object. -/
structure Threads where
  pc : Nat → Pc
  sh : Shared

def Threads.init : Threads :=
  { pc := fun _ => .reset, sh := { ptr := 1, heap := fun _ => [], fresh := 2 } }

def threadStep (iterative : Bool) (t : Threads) (w : Nat) : Threads :=
  let r := workerStep iterative w (t.pc w) t.sh
  { pc := fun x => if x = w then r.1 else t.pc x, sh := r.2 }

/-- a schedule is the list of workers in the order they take a step -/
def runThreads (iterative : Bool) (sched : List Nat) : Threads :=
  sched.foldl (threadStep iterative) Threads.init

/-- Processes: every worker has its own copy of the algorithm object. -/
structure Procs where
  pc : Nat → Pc
  own : Nat → Shared

def Procs.init : Procs :=
  { pc := fun _ => .reset, own := fun _ => { ptr := 1, heap := fun _ => [], fresh := 2 } }

def procStep (iterative : Bool) (t : Procs) (w : Nat) : Procs :=
  let r := workerStep iterative w (t.pc w) (t.own w)
  { pc := fun x => if x = w then r.1 else t.pc x, own := fun x => if x = w then r.2 else t.own x }

def runProcs (iterative : Bool) (sched : List Nat) : Procs :=
  sched.foldl (procStep iterative) Procs.init

end Foxes.ChunkStore
