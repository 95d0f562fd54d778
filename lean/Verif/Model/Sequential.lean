/-
Model of the Sequential algorithm's iterator, foxes/algorithms/sequential/sequential.py:133-265, and of the states object that it
puts around the user's states (foxes/algorithms/sequential/models/seq_state.py).

`σ`: everything a step may depend on besides the counter (e.g. data the wake frame keeps from earlier states).
`R`: the results of one state (rows of all farm variables).
`L`: state labels (the index of the states).
-/
namespace Foxes.Sequential

variable {σ R L : Type} [DecidableEq L]

/-- What is fixed: the labels of the states (`self._inds = self.states0.index()`, line 141) and the calculation of one
state (lines 200-205, `super().calc_farm` on the model data of the current counter), `none`: it raises. -/
structure Setup (σ R L : Type) where
  labels : List L
  step : Nat → σ → Option (R × σ)
  zero : R
  /-- what `states.size()` was when the algorithm was constructed (seq_state.py:31); `none`: the states did not know their number yet -/
  size0 : Option Nat

/-- The labels of the rows of the results (sequential.py:150, 158-160): the coordinate `state` of the model data, which is `SeqState.index()` at the
time when the model is initialised (core/states.py:87-89, seq_state.py:76): `[self._indx]`, that is `[None]`, if the number of states was known to be
one; else the labels of the states. -/
def Setup.rows (S : Setup σ R L) : List (Option L) := if S.size0 = some 1 then [none] else S.labels.map some

/-- the mutable attributes -/
structure St (σ R : Type) where
  i : Option Nat          -- self._i, None: not iterating
  mem : σ
  res : List R            -- self._farm_results, one row per state

inductive Err
  | stopIteration
  | calcError             -- whatever the calculation raised
  | typeError             -- `None < int`, line 190
  | indexError            -- label look-up in an index with duplicates, line 209
  | keyError              -- label look-up without result, line 209
  | attributeError        -- number of states asked for too early, seq_state.py:31
deriving DecidableEq, Repr

/-- `__iter__` (lines 133-185): a fresh start unless an iteration is under way -/
def iter (S : Setup σ R L) (s : St σ R) : St σ R :=
  match s.i with
  | some _ => s
  | none => { s with i := some 0, res := List.replicate S.rows.length S.zero }

/-- `self._farm_results[v].loc[{STATE: [self.index]}] = fres[v]` (lines 207-212): the row is found by its label; a
list look-up in an index with repeated labels raises, and so does a label that is not found -/
def store (S : Setup σ R L) (k : Nat) (r : R) (res : List R) : Except Err (List R) :=
  match S.labels[k]? with
  | none => .error .indexError
  | some l =>
      if S.rows.Nodup then
        if some l ∈ S.rows then .ok (res.set (S.rows.idxOf (some l)) r) else .error .keyError
      else .error .indexError

/-- `__next__` (lines 187-265), without points and plugins: the outcome and the state left behind -/
def next (S : Setup σ R L) (s : St σ R) : Except Err R × St σ R :=
  match s.i with
  | none => (.error .typeError, s)
  | some k =>
      if k < S.labels.length then
        match S.step k s.mem with
        | none => (.error .calcError, s)
        | some (r, m) =>
            match store S k r s.res with
            | .error e => (.error e, { s with mem := m })
            | .ok res => (.ok r, { i := some (k + 1), mem := m, res := res })
      else (.error .stopIteration, { s with i := none })

/-- `for r in algo: ...`, ended by the caller after at most `n` results (`break`): the results seen and what ended the
loop (`none`: the caller) -/
def forLoop (S : Setup σ R L) : Nat → St σ R → List R × Option Err × St σ R
  | 0, s => ([], none, s)
  | n + 1, s =>
      match next S s with
      | (.error e, s) => ([], some e, s)
      | (.ok r, s) =>
          let o := forLoop S n s
          (r :: o.1, o.2)

def run (S : Setup σ R L) (n : Nat) (s : St σ R) : List R × Option Err × St σ R := forLoop S n (iter S s)

/-! ### The user's states -/

/-- classes of states (foxes/input/states), as far as their size is concerned -/
inductive Kind
  /-- `SingleStateStates` (single.py:120-130) -/
  | single
  /-- `ScanStates` (scan.py:64, 150-160) and `WRGStates` (wrg_states.py:163, 175-185): the attribute `_N` is created when data are loaded -/
  | late
  /-- tables, several heights, field data: `_N` is `None` before data are loaded (states_table.py:98, multi_height.py:106, field_data_nc.py:184) -/
  | table
  /-- `OnePointFlowStates` and relatives ask their base states (one_point_flow.py:148-158) -/
  | onePoint (base : Kind)
deriving DecidableEq

/-- `states.size()` for `n` states. `loaded`: the object has been initialised before, e.g. by another algorithm. Outer `none`: AttributeError, inner `none`:
`None`. -/
def Kind.size (loaded : Bool) (n : Nat) : Kind → Option (Option Nat)
  | .single => some (some 1)
  | .late => if loaded then some (some n) else none
  | .table => some (if loaded then some n else none)
  | .onePoint b => b.size loaded n

/-- `Sequential(farm, states, ...)` (sequential.py:99, seq_state.py:28-33): the setup, for states with the given labels -/
def construct (kind : Kind) (loaded : Bool) (labels : List L) (step : Nat → σ → Option (R × σ)) (zero : R) : Except Err (Setup σ R L) :=
  match kind.size loaded labels.length with
  | none => .error .attributeError
  | some n => .ok { labels := labels, step := step, zero := zero, size0 := n }

end Foxes.Sequential
