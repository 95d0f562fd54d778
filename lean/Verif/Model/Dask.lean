import Verif.Model.Engine
import Verif.Model.Run
import Verif.Model.ChunkData
/-
Model of the engines that run on dask (foxes/engines/dask.py): their life cycle with the settings of dask, lists of function calls, the transfer of the data of
a chunk to the workers of a cluster, the data that workers send back, and what the engine based on xarray hands to its chunks. Not modelled: dask,
distributed and xarray themselves; a launched cluster and an active progress bar are opened and closed without errors; that a deleted cluster engine closes
its cluster first (dask.py:838-843).
-/
namespace Foxes.Dask
open Foxes.DataBox (Arr Entry Data insertKey)
open Foxes.ChunkData

/-! ### Life cycle -/

/-- settings: names and values -/
abbrev Conf := List (String × String)

/-- `d.update(u)`; also `dask.config.set(**u)`, for names without nesting -/
def update (d u : Conf) : Conf := u.foldl (fun d p => insertKey p.1 p.2 d) d

/-- what is fixed for the engines of a session -/
structure Setup where
  /-- the engine is a `LocalClusterEngine` (dask.py:768-816); otherwise `DaskEngine` or `XArrayEngine` -/
  cluster : Nat → Bool
  /-- `progress_bar` (dask.py:60) -/
  bar : Nat → Bool
  /-- `dask_config`, if the caller gives it (dask.py:59) -/
  given : Nat → Option Conf
  /-- the settings in files and environment, which `dask.config.refresh()` reads -/
  base : Conf

/-- the state of the session: the engines, the settings of dask, and the dictionaries of settings. The default value of the parameter `dask_config` is one
dictionary for all engines (dask.py:59). -/
structure State where
  /-- flags, global slot, and the resources of the engines: progress bar and cluster are opened together (dask.py:85-89, 818-826) and closed
  together (dask.py:91-94, 828-836) -/
  eng : Engine.State
  conf : Conf
  shared : Conf
  own : Nat → Conf
  created : Nat → Bool

inductive Err
  | unknown              -- no such engine
  | engine (e : Engine.Err)
deriving DecidableEq, Repr

/-- fresh interpreter -/
def State.init (u : Setup) : State :=
  { eng := Engine.State.init (fun e => u.bar e || u.cluster e), conf := u.base, shared := [], own := fun e => (u.given e).getD [], created := fun _ => false }

/-- `self.dask_config` -/
def dictOf (u : Setup) (s : State) (e : Nat) : Conf := match u.given e with
  | none => s.shared
  | some _ => s.own e

/-- the settings that cluster engines add (dask.py:812-813) -/
def clusterConf : Conf := [("scheduler", "distributed"), ("distributed.scheduler.worker-ttl", "None")]

/-- the constructors (dask.py:56-83, 783-816): cluster engines write into the dictionary they hold -/
def create (u : Setup) (s : State) (e : Nat) : State :=
  let s := { s with created := Engine.upd s.created e true }
  if u.cluster e then
    match u.given e with
    | none => { s with shared := update s.shared clusterConf }
    | some _ => { s with own := Engine.upd s.own e (update (s.own e) clusterConf) }
  else s

/-- `dask.config.set(**self.dask_config)` (dask.py:100) -/
def setConf (u : Setup) (s : State) (e : Nat) : State := { s with conf := update s.conf (dictOf u s e) }

/-- `dask.config.refresh()` (dask.py:183) -/
def refresh (u : Setup) (s : State) : State := { s with conf := u.base }

/-- `initialize` of an entered engine (dask.py:96-101, engine.py:125-131) -/
def initCore (u : Setup) (s : State) (e : Nat) : State × Engine.Outcome :=
  let s := setConf u s e
  let r := Engine.initCore s.eng e
  ({ s with eng := r.1 }, r.2)

/-- `Engine.__enter__` with the `initialize` of the dask engines (engine.py:74-80) -/
def baseEnter (u : Setup) (s : State) (e : Nat) : State × Engine.Outcome :=
  if s.eng.entered e then (s, some .alreadyEntered)
  else
    let s := { s with eng := { s.eng with entered := Engine.upd s.eng.entered e true } }
    if s.eng.initialized e then (s, none) else initCore u s e

/-- `__enter__` (dask.py:85-89, 818-826) -/
def enter (u : Setup) (s : State) (e : Nat) : State × Engine.Outcome := baseEnter u { s with eng := Engine.createPool s.eng e } e

/-- `finalize` of an engine that is not entered (dask.py:171-184, engine.py:149-151) -/
def finCore (u : Setup) (s : State) (e : Nat) : State :=
  let s := refresh u s
  { s with eng := Engine.finCore s.eng e }

/-- `__exit__` (dask.py:91-94, 828-836, engine.py:82-87) -/
def exit (u : Setup) (s : State) (e : Nat) : State × Engine.Outcome :=
  match Engine.shutdownPool s.eng e with
  | (g, some err) => ({ s with eng := g }, some err)
  | (g, none) =>
    if g.entered e then
      let s := { s with eng := { g with entered := Engine.upd g.entered e false } }
      if s.eng.initialized e then (finCore u s e, none) else (s, none)
    else ({ s with eng := g }, some .notEntered)

/-- `initialize` (dask.py:96-101, engine.py:119-131) -/
def initEngine (u : Setup) (s : State) (e : Nat) : State × Engine.Outcome :=
  let s := setConf u s e
  if s.eng.entered e then
    let r := Engine.initCore s.eng e
    ({ s with eng := r.1 }, r.2)
  else enter u s e

/-- `finalize` (dask.py:171-184, engine.py:133-151) -/
def finalize (u : Setup) (s : State) (e : Nat) : State × Engine.Outcome :=
  let s := refresh u s
  if s.eng.entered e then exit u s e else ({ s with eng := Engine.finCore s.eng e }, none)

/-- calls of the user -/
inductive Op
  | create (e : Nat)
  | call (o : Engine.Op)
  /-- `dask.config.set` in the script of the user -/
  | config (k v : String)
deriving DecidableEq, Repr

/-- the engine a call is about -/
def target : Engine.Op → Option Nat
  | .enter e | .exit e | .initOp e | .finalize e | .del e => some e
  | .reset => none

/-- a call on an engine that exists -/
def call (u : Setup) (s : State) : Engine.Op → State × Engine.Outcome
  | .enter e => enter u s e
  | .exit e => exit u s e
  | .initOp e => initEngine u s e
  | .finalize e => finalize u s e
  | .del e => if s.eng.initialized e then finalize u s e else (s, none)
  | .reset => match s.eng.global with
    | none => (s, none)
    | some e => finalize u s e

/-- one step of a session -/
def step (u : Setup) (s : State) : Op → State × Option Err
  | .create e => (create u s e, none)
  | .config k v => ({ s with conf := insertKey k v s.conf }, none)
  | .call o =>
    match target o with
    | some e => if s.created e then ((call u s o).1, (call u s o).2.map .engine) else (s, some .unknown)
    | none => ((call u s o).1, (call u s o).2.map .engine)

/-- a session; errors are caught by the caller -/
def run (u : Setup) (s : State) (ops : List Op) : State := ops.foldl (fun s o => (step u s o).1) s

/-- `with engine: body`: an error of `__enter__` propagates; otherwise `__exit__` runs after the body, however it ends -/
def withBlock (u : Setup) (s : State) (e : Nat) (body : List Op) : State × Engine.Outcome :=
  match enter u s e with
  | (s, some err) => (s, some err)
  | (s, none) => exit u (run u s body) e

/-! ### Lists of function calls -/

/-- `DaskBaseEngine.map` (dask.py:103-144, 554-557); `dask.compute` returns the results in the order of the jobs -/
def map {α β : Type} (nProcs : Nat) (f : α → β) (inputs : List α) : Option (List β) :=
  match inputs with
  | [] => some []
  | [x] => some [f x]
  | _ =>
    let k := min nProcs inputs.length
    if k = 0 then none else some (((Run.arraySplit inputs k).map (fun sub => sub.map f)).flatten)

/-- `XArrayEngine.map` (dask.py:328-356) -/
def mapX {α β : Type} (f : α → β) (inputs : List α) : List β := inputs.map f

/-! ### Transfer to the workers of a cluster -/

variable {V : Type}

/-- names, dimensions and arrays of the containers of a chunk, one after the other (dask.py:953-962) -/
def names (ds : List (Data V)) : List String := ds.flatMap (fun d => d.entries.map Prod.fst)
def dims (ds : List (Data V)) : List (Option (List String)) := ds.flatMap (fun d => d.entries.map (fun p => p.2.dims))
def arrays (ds : List (Data V)) : List (Arr V) := ds.flatMap (fun d => d.entries.map (fun p => p.2.arr))

/-- `{names[i]: data[i] for i in range(a, b)}` with the dimensions (dask.py:735-760); none for an index out of range -/
def part (ns : List String) (dm : List (Option (List String))) (ar : List (Arr V)) (a b : ℕ) : Option (List (String × Entry V)) :=
  (List.range' a (b - a)).foldlM (fun es i => match ns[i]?, dm[i]?, ar[i]? with
    | some n, some l, some x => some (insertKey n ⟨x, l⟩ es)
    | _, _, _ => none) []

/-- errors on a worker -/
inductive WErr
  | index
  | data (e : ChunkData.Err)
deriving DecidableEq, Repr

/-- one container on the worker -/
def rebuildOne (k : Kind) (coord : ℕ → V) (es : Option (List (String × Entry V))) (ld : Option (List String)) (i0 : ℕ) : Except WErr (Data V) :=
  match es, ld with
  | some es, some ld => match construct k coord es ld (some i0) with
    | .error x => .error (.data x)
    | .ok d => .ok d
  | _, _ => .error .index

/-- the containers on the worker (dask.py:715-760) -/
def rebuild (coord : ℕ → V) (ns : List String) (dm : List (Option (List String))) (ar : List (Arr V)) (msize fsize : ℕ) (lds : List (List String)) (i0 : ℕ) :
    Except WErr (List (Data V)) :=
  match rebuildOne .model coord (part ns dm ar 0 msize) lds[0]? i0 with
  | .error x => .error x
  | .ok m => match rebuildOne .farm coord (part ns dm ar msize (msize + fsize)) lds[1]? i0 with
    | .error x => .error x
    | .ok f =>
      if ar.length > msize + fsize then
        match rebuildOne .target coord (part ns dm ar (msize + fsize) ar.length) lds[2]? i0 with
        | .error x => .error x
        | .ok t => .ok [m, f, t]
      else .ok [m, f]

/-- what the worker for the chunk that starts at state `i0` works with (dask.py:953-992, 715-760) -/
def transfer (coord : ℕ → V) (ds : List (Data V)) (i0 : ℕ) : Except WErr (List (Data V)) :=
  match ds with
  | m :: f :: _ => rebuild coord (names ds) (dims ds) (arrays ds) m.entries.length f.entries.length (ds.map (·.loopDims)) i0
  | _ => .error .index

/-! ### Data that workers send back -/

/-- a chunk store: data of chunks by their first state and first target -/
abbrev Store (D : Type) := List ((ℕ × ℕ) × List (String × D))

/-- the part of its store that a worker returns (dask.py:544-551, 762-765) -/
def sendBack {D : Type} (iterative : Bool) (key : ℕ × ℕ) (st : Store D) : Store D :=
  if iterative then match st.lookup key with
    | some c => [(key, c)]
    | none => []
  else []

/-- `d.update(u)` -/
def updateD {D : Type} (d u : List (String × D)) : List (String × D) := u.foldl (fun d p => insertKey p.1 p.2 d) d

/-- one entry into the store of the algorithm (engine.py:479-483, 491-495) -/
def mergeOne {D : Type} (st : Store D) (p : (ℕ × ℕ) × List (String × D)) : Store D :=
  match st with
  | [] => [p]
  | q :: l => if q.1 = p.1 then (q.1, updateD q.2 p.2) :: l else q :: mergeOne l p

/-- the stores of all chunks, once for each result variable that the first chunk has (engine.py:467-497) -/
def mergeAll {D : Type} (nVars : ℕ) (stores : List (Store D)) (st : Store D) : Store D :=
  (List.range nVars).foldl (fun st _ => stores.foldl (fun st s => s.foldl mergeOne st) st) st

/-! ### The engine based on xarray -/

/-- the sizes of the blocks of an axis of length `n` for chunk size `c`, as dask makes them -/
def blocks (n c : ℕ) : List ℕ := List.replicate (n / c) c ++ (if n % c = 0 then [] else [n % c])

/-- the loop dimensions of an engine (engine.py:188-206); the first test asks for the states twice -/
def loopDims (cs cp : Option ℕ) : List String :=
  if cs = none ∧ cs = none then []
  else if cs = none then ["target"]
  else if cp = none then ["state"]
  else ["state", "target"]

/-- `chunk_data` (dask.py:146-169): which dimensions of data with sizes `sizes` and coordinates `coords` are chunked, and how; none for a missing dimension -/
def chunkData (cs cp : ℕ) (sizes : List (String × ℕ)) (coords : List String) : Option (List (String × ℕ)) :=
  match sizes.lookup "state" with
  | none => none
  | some n =>
    let cks := ("state", min n cs) :: (match sizes.lookup "target" with
      | some m => [("target", min m cp)]
      | none => [])
    some (cks.filter (fun p => p.1 ∈ coords))

/-- the variables and coordinates of the datasets that depend on loop dimensions, in the order of `ldata` (dask.py:439-476) -/
def loopData (loop : List String) (dss : List (DS V)) : List (String × Entry V) :=
  dss.flatMap (fun ds => ds.vars.filter (fun p => (dimsOf p.2).any (· ∈ loop)) ++ ds.coords.filter (fun p => p.1 ∈ loop))

/-- the other ones, in the order of `edata` (dask.py:439-480) -/
def extraData (loop : List String) (dss : List (DS V)) : List (String × Entry V) :=
  dss.flatMap (fun ds => ds.vars.filter (fun p => !(dimsOf p.2).any (· ∈ loop)) ++ ds.coords.filter (fun p => !(p.1 ∈ loop)))

/-- the data of one dataset in a chunk (dask.py:215-220): by name, the first of that name among all datasets; `cut` is the part of the chunk -/
def chunkEntries (cut : Entry V → Entry V) (loop : List String) (dss : List (DS V)) (ds : DS V) : List (String × Option (Entry V)) :=
  (ds.vars ++ ds.coords).map (fun p => (p.1, match (loopData loop dss).lookup p.1 with
    | some e => some (cut e)
    | none => (extraData loop dss).lookup p.1))

/-- missing results (dask.py:294-310): the first container with data of that name and of the expected shape -/
def fillMissing (oshape : List ℕ) (data : List (List (String × Arr V))) (outVars : List String) (results : List (String × Arr V)) : Except (List String) (List (String × Arr V)) :=
  let missing := outVars.filter (fun v => (results.lookup v).isNone)
  let found := missing.filterMap (fun v => (data.findSome? (fun d => (d.lookup v).filter (fun a => a.shape = oshape))).map (fun a => (v, a)))
  let lost := missing.filter (fun v => (found.lookup v).isNone)
  if lost = [] then .ok (results ++ found) else .error lost

/-- the requested chunk sizes of an engine -/
structure Sizes where
  states : Option ℕ
  points : Option ℕ
deriving DecidableEq, Repr

/-- a run of the engine (dask.py:418-429, 536-538): the sizes are replaced by the smallest chunks, and put back after the preparation; `ok` says whether the
preparation succeeds. The result is the sizes that are used, or none if there are no chunks. -/
def runX (nProcs : ℕ) (z : Sizes) (n nT : ℕ) (ok : Bool) : Sizes × Option (ℕ × ℕ) :=
  match Chunks.calcChunkSizes { nProcs := nProcs, chunkSizeStates := z.states, chunkSizePoints := z.points } n nT with
  | .error _ => (z, none)
  | .ok (css, cts) =>
    match css.min?, cts.min? with
    | some a, some b => (if ok then z else ⟨some a, some b⟩, some (a, b))
    | _, _ => (z, none)

/-! ### Selections -/

/-- the positions of labels; none for a label that does not exist (KeyError) -/
def positions {L : Type} [DecidableEq L] (coord labels : List L) : Option (List ℕ) := labels.mapM (fun x => let i := coord.idxOf x; if i < coord.length then some i else none)

/-- `select_subsets` for labels along one dimension of length `n` (engine.py:208-235): data without that coordinate stays as it is -/
def selectOne {L : Type} [DecidableEq L] (n : ℕ) (coord : Option (List L)) (labels : Option (List L)) : Option (List ℕ) :=
  match labels, coord with
  | some l, some c => positions c l
  | _, _ => some (List.range n)

/-- the same for positions, of data whose coordinate has `n` entries (engine.py:237-247) -/
def iselectOne (hasCoord : Bool) (n : ℕ) (idx : Option (List ℕ)) : Option (List ℕ) :=
  match idx with
  | some l => if hasCoord then (if l.all (· < n) then some l else none) else some (List.range n)
  | none => some (List.range n)

end Foxes.Dask
