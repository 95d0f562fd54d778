import Verif.Model.Engine
import Verif.Model.Run
import Mathlib.Analysis.SpecialFunctions.Pow.Real
import Mathlib.Analysis.Real.Sqrt
/-
The default engine (foxes/engines/default.py), `get_engine` (foxes/core/engine.py:616-655), and calculations that ask for the engine
(foxes/algorithms/downwind/downwind.py:508, 683).
-/
namespace Foxes.DefEng
open Foxes.Engine (State Outcome upd)

/-- the parameters of an engine (engine.py:36-65) -/
structure Pars where
  chunkStates : Option ℕ
  chunkPoints : Option ℕ
  nProcs : ℕ
deriving DecidableEq

/-- the engines the default engine uses -/
inductive Kind where
  | single | process
deriving DecidableEq

/-- a calculation: numbers of states and turbines, number of points (`none`: farm calculation), and does a model raise? -/
structure Job where
  nStates : ℕ
  nTurbines : ℕ
  points : Option ℕ
  fails : Bool

/-- the choice of the engine (default.py:90-98), for at least one turbine. Simplified: real numbers instead of floats. -/
noncomputable def choice (p : Pars) (j : Job) : Kind :=
  open Classical in
  if √(p.nProcs : ℝ) * (500 / (j.nTurbines : ℝ)) ^ (1.5 : ℝ) ≤ (j.nStates : ℝ) ∨ (match j.points with | some n => 10000 < j.nStates * n | none => False) then .process
  else .single

/-- what comes out: nothing, the exception of the calculation, an exception of an engine, ZeroDivisionError -/
inductive Out where
  | ok
  | calc
  | engine (e : Engine.Err)
  | zeroDivision
deriving DecidableEq

/-- The engines: `next` is the number of the next one to be created; which ones are default engines; their parameters. -/
structure St where
  eng : State
  next : ℕ
  isDefault : ℕ → Bool
  pars : ℕ → Pars

/-- a calculation that was done: the kind of engine (`none`: the engine itself, not a default one), the parameters it got, the global
engine meanwhile -/
structure Used where
  kind : Option Kind
  pars : Pars
  slot : Option ℕ
deriving DecidableEq

/-- `Engine.new(...)` -/
def new (s : St) (dflt pooled : Bool) (p : Pars) : St :=
  { eng := { s.eng with pooled := upd s.eng.pooled s.next pooled }, next := s.next + 1, isDefault := upd s.isDefault s.next dflt, pars := upd s.pars s.next p }

/-- the parameters of the engine of `get_engine` (engine.py:647): no chunk sizes, all `cpu` processors -/
def stdPars (cpu : ℕ) : Pars := ⟨none, none, cpu⟩

/-- `get_engine()` (engine.py:635-655): the global engine, or a new default engine -/
def getEngine (cpu : ℕ) (s : St) : St × ℕ × Outcome :=
  match s.eng.global with
  | some e => (s, e, none)
  | none =>
    let s1 := new s true false (stdPars cpu)
    let r := Engine.initEngine s1.eng s.next
    ({ s1 with eng := r.1 }, s.next, r.2)

/-- what the default engine does with its own slot in `run_calculation` (default.py:102-116), from `finalize` to the end of the inner engine: the
inner engine has number `s.next` -/
def inner (s : St) (e : ℕ) (k : Kind) : St × Outcome × Used :=
  match Engine.finalize s.eng e with
  | (g, some err) => ({ s with eng := g }, some err, ⟨some k, s.pars e, g.global⟩)
  | (g, none) =>
    let s1 := new { s with eng := g } false (k == .process) (s.pars e)
    match Engine.enter s1.eng s.next with
    | (g, some err) => ({ s1 with eng := g }, some err, ⟨some k, s.pars e, g.global⟩)
    | (g, none) =>
      let r := Engine.exit g s.next
      ({ s1 with eng := r.1 }, r.2, ⟨some k, s.pars e, g.global⟩)

/-- `run_calculation` of a default engine (default.py:63-118): without turbines the formula divides by zero; an exception of the calculation leaves
the block of the inner engine, and skips `self.initialize()` -/
noncomputable def runDefault (s : St) (e : ℕ) (j : Job) : St × Out × Option Used :=
  if j.nTurbines = 0 then (s, .zeroDivision, none)
  else
    let r := inner s e (choice (s.pars e) j)
    match r.2.1 with
    | some err => (r.1, .engine err, none)
    | none =>
      if j.fails then (r.1, .calc, some r.2.2)
      else
        let q := Engine.initEngine r.1.eng e
        ({ r.1 with eng := q.1 }, match q.2 with | some err => .engine err | none => .ok, some r.2.2)

/-- a calculation (downwind.py:508): the global engine runs it. Other engines (numpy, process, ...) leave the slot as it is. -/
noncomputable def calculate (cpu : ℕ) (s : St) (j : Job) : St × Out × Option Used :=
  match getEngine cpu s with
  | (s, _, some err) => (s, .engine err, none)
  | (s, e, none) =>
    if s.isDefault e then runDefault s e j
    else (s, if j.fails then .calc else .ok, some ⟨none, s.pars e, s.eng.global⟩)

/-- calculations in a script; `tries`: the exception is caught by the script -/
structure Stmt where
  job : Job
  tries : Bool

/-- a sequence of calculations, until an exception is not caught -/
noncomputable def script (cpu : ℕ) : St → List Stmt → St × Out × List Used
  | s, [] => (s, .ok, [])
  | s, c :: l =>
    let r := calculate cpu s c.job
    if r.2.1 = .ok ∨ c.tries = true then
      let q := script cpu r.1 l
      (q.1, q.2.1, r.2.2.toList ++ q.2.2)
    else (r.1, r.2.1, r.2.2.toList)

/-- `with DefaultEngine(**p): script` : the exception of `__exit__`, if any, replaces that of the script -/
noncomputable def withDefault (cpu : ℕ) (s : St) (p : Pars) (l : List Stmt) : St × Out × List Used :=
  let s1 := new s true false p
  match Engine.enter s1.eng s.next with
  | (g, some err) => ({ s1 with eng := g }, .engine err, [])
  | (g, none) =>
    let q := script cpu { s1 with eng := g } l
    let x := Engine.exit q.1.eng s.next
    ({ q.1 with eng := x.1 }, match x.2 with | some err => .engine err | none => q.2.1, q.2.2)

/-- a new interpreter -/
def init : St := ⟨State.init (fun _ => false), 0, fun _ => false, fun _ => ⟨none, none, 1⟩⟩

/-- the chunk parameters the inner engine is created with (default.py:104-110) -/
def cfgOf (p : Pars) : Foxes.Chunks.Cfg := ⟨p.chunkStates, p.chunkPoints, p.nProcs⟩

/-- The results of a default engine for a calculation at `nT` points for the states `md` of a farm of `nTurbines` turbines: in one piece by the engine
`single` (engines/single.py), in chunks by the process pool. -/
noncomputable def pointResults {S T R : Type} (p : Pars) (nTurbines : ℕ) (mdl : List S → List (List T) → List (List R)) (md : List S)
    (pd : List (List T)) (nT : ℕ) : Option (List (List R)) :=
  match choice p ⟨md.length, nTurbines, some nT, false⟩ with
  | .single => Foxes.Run.singleRun (Foxes.Run.runPointsJob mdl md pd) md.length nT
  | .process => Foxes.Run.engineRun (cfgOf p) (Foxes.Run.runPointsJob mdl md pd) md.length nT

end Foxes.DefEng
