/-
Model of the engine life cycle: foxes/core/engine.py:12-14 (global slot), 60-68, 74-87, 119-151,
get_engine/reset_engine (614-680), and foxes/engines/pool.py:83-89.

Engines are numbered by `Nat`; their private flags are functions of the number. `__del__`
(engine.py:89-91) is the operation `del`. `get_engine(default=...)` creating a default engine is the
operation `initialize` on a fresh number.
-/
namespace Foxes.Engine

inductive Err
  | alreadyEntered    -- engine.py:76
  | notEntered        -- engine.py:84
  | alreadySet        -- engine.py:127
  | noPool            -- AttributeError in `_shutdown_pool` before any `_create_pool`
deriving DecidableEq, Repr

/-- `None` is a normal return. -/
abbrev Outcome := Option Err

structure State where
  /-- `__global_engine_data__["engine"]` -/
  global : Option Nat
  entered : Nat → Bool
  initialized : Nat → Bool
  /-- the engine class derives from `PoolEngine` -/
  pooled : Nat → Bool
  /-- `self._pool` exists -/
  hasPool : Nat → Bool
  /-- `self._pool` has not been shut down -/
  poolOpen : Nat → Bool
  /-- number of pools of this engine which are not shut down -/
  live : Nat → Nat

/-- fresh interpreter: nothing entered, no engine set -/
def State.init (pooled : Nat → Bool) : State :=
  { global := none, entered := fun _ => false, initialized := fun _ => false, pooled := pooled,
    hasPool := fun _ => false, poolOpen := fun _ => false, live := fun _ => 0 }

def upd {α : Type} (f : Nat → α) (e : Nat) (v : α) : Nat → α := fun x => if x = e then v else f x

/-- engine.py:125-131, the part of `initialize` reached when `entered`. -/
def initCore (s : State) (e : Nat) : State × Outcome :=
  if s.initialized e then (s, none)
  else if s.global ≠ none then (s, some .alreadySet)
  else ({ s with global := some e, initialized := upd s.initialized e true }, none)

/-- engine.py:74-80, `Engine.__enter__`; `initialize` then takes its `entered` branch. -/
def baseEnter (s : State) (e : Nat) : State × Outcome :=
  if s.entered e then (s, some .alreadyEntered)
  else
    let s := { s with entered := upd s.entered e true }
    if s.initialized e then (s, none) else initCore s e

/-- `_create_pool` (futures.py:14-16). -/
def createPool (s : State) (e : Nat) : State :=
  if s.pooled e then
    { s with hasPool := upd s.hasPool e true, poolOpen := upd s.poolOpen e true,
             live := upd s.live e (s.live e + 1) }
  else s

/-- pool.py:83-85 -/
def enter (s : State) (e : Nat) : State × Outcome := baseEnter (createPool s e) e

/-- engine.py:149-151, the part of `finalize` reached when not `entered`. -/
def finCore (s : State) (e : Nat) : State :=
  if s.initialized e then { s with global := none, initialized := upd s.initialized e false } else s

/-- engine.py:82-87 -/
def baseExit (s : State) (e : Nat) : State × Outcome :=
  if s.entered e then
    let s := { s with entered := upd s.entered e false }
    if s.initialized e then (finCore s e, none) else (s, none)
  else (s, some .notEntered)

/-- `_shutdown_pool` (futures.py:58-60); `shutdown` of a closed pool is a no-op. -/
def shutdownPool (s : State) (e : Nat) : State × Outcome :=
  if s.pooled e then
    if s.hasPool e then
      if s.poolOpen e then
        ({ s with poolOpen := upd s.poolOpen e false, live := upd s.live e (s.live e - 1) }, none)
      else (s, none)
    else (s, some .noPool)
  else (s, none)

/-- pool.py:87-89 -/
def exit (s : State) (e : Nat) : State × Outcome :=
  match shutdownPool s e with
  | (s, some err) => (s, some err)
  | (s, none) => baseExit s e

/-- engine.py:119-131 -/
def initEngine (s : State) (e : Nat) : State × Outcome :=
  if s.entered e then initCore s e else enter s e

/-- engine.py:133-151 -/
def finalize (s : State) (e : Nat) : State × Outcome :=
  if s.entered e then exit s e else (finCore s e, none)

/-- engine.py:670-680 -/
def resetEngine (s : State) : State × Outcome :=
  match s.global with
  | none => (s, none)
  | some e => finalize s e

inductive Op
  | enter (e : Nat)
  | exit (e : Nat)
  | initOp (e : Nat)
  | finalize (e : Nat)
  | del (e : Nat)
  | reset
deriving DecidableEq, Repr

def step (s : State) : Op → State × Outcome
  | .enter e => enter s e
  | .exit e => exit s e
  | .initOp e => initEngine s e
  | .finalize e => finalize s e
  | .del e => if s.initialized e then finalize s e else (s, none)
  | .reset => resetEngine s

/-- a history of calls; exceptions are caught by the caller -/
def run (s : State) (ops : List Op) : State := ops.foldl (fun s o => (step s o).1) s

/-- `with engine: body` as an operation: an exception of `__enter__` propagates (body and `__exit__`
are not run); otherwise `__exit__` runs after the body, however the body ends. -/
def withBlock (s : State) (e : Nat) (body : List Op) : State × Outcome :=
  match enter s e with
  | (s, some err) => (s, some err)
  | (s, none) => exit (run s body) e

end Foxes.Engine
