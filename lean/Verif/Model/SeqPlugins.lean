import Verif.Model.Sequential
/-
Model of the Sequential algorithm with points and plugins, foxes/algorithms/sequential/sequential.py:125-358 and sequential/models/plugin.py. Extends Model/Sequential.lean
(farm results only).

`P`: the results of one state at the user's points. A plugin is known by its position in the user's list; what is observed of it are the calls it gets.
Simplification: `initialize` and `finalize` of plugins do not raise; an `update` raises or not depending on the plugin and the state.
-/
namespace Foxes.SeqPlugins
open Foxes.Sequential

variable {σ R P L : Type} [DecidableEq L]

/-- what is fixed -/
structure Full (σ R P L : Type) extends Setup σ R L where
  /-- the user gave points (`self.points is not None`) -/
  points : Bool
  /-- `super().calc_points(fres, points=self.points, finalize=False)` (line 222); `none`: it raises -/
  pstep : Nat → R → σ → Option (P × σ)
  pzero : P
  /-- the number of plugins -/
  plugins : Nat
  /-- the `update` of the plugin raises for the state with this number -/
  raises : Nat → Nat → Bool

/-- calls of plugins, with their arguments -/
inductive Call (R P : Type)
  | initialize (plugin : Nat)
  | update (plugin : Nat) (counter : Nat) (fres : R) (pres : Option P)
  | finalize (plugin : Nat)
deriving DecidableEq

inductive Fail
  | base (e : Err)
  | plugin (p : Nat)     -- raised by the update of this plugin
  | notIterating         -- ValueError, line 356
deriving DecidableEq

/-- the mutable attributes -/
structure Mem (σ R P : Type) where
  i : Option Nat             -- self._i
  counter : Nat              -- self._counter
  mem : σ
  res : List R               -- self._farm_results
  pres : Option (List P)     -- self._point_results
  calls : List (Call R P)    -- calls of plugins so far

/-- `__iter__` (lines 133-185) -/
def iter (S : Full σ R P L) (s : Mem σ R P) : Mem σ R P :=
  match s.i with
  | some _ => s
  | none => { i := some 0, counter := 0, mem := s.mem, res := List.replicate S.rows.length S.zero, pres := none,
              calls := s.calls ++ (List.range S.plugins).map .initialize }

/-- `for p in self.plugins: p.update(self, fres[, pres])` (lines 215-216, 247-248), from the plugin number `p` on (`n` of them): the calls that returned, and the plugin that
raised -/
def updates (S : Full σ R P L) (k : Nat) (r : R) (x : Option P) : Nat → Nat → List (Call R P) × Option Nat
  | _, 0 => ([], none)
  | p, n + 1 =>
      if S.raises p k then ([], some p)
      else
        let o := updates S k r x (p + 1) n
        (.update p k r x :: o.1, o.2)

/-- the updates at the end of a step, then `self._i += 1` (lines 215-219, 247-251) -/
def finish (S : Full σ R P L) (k : Nat) (r : R) (x : Option P) (s : Mem σ R P) : Except Fail (R × Option P) × Mem σ R P :=
  let o := updates S k r x 0 S.plugins
  match o.2 with
  | some p => (.error (.plugin p), { s with calls := s.calls ++ o.1 })
  | none => (.ok (r, x), { s with calls := s.calls ++ o.1, i := some (k + 1) })

/-- the point results before the first state (lines 224-242): zeros for all rows -/
def points0 (S : Full σ R P L) (x : Option (List P)) : List P := x.getD (List.replicate S.rows.length S.pzero)

/-- `self._point_results[v].loc[{STATE: [self.index]}] = pres[v]` (lines 243-245): the same rows as those of the farm results -/
def storeP (S : Full σ R P L) (k : Nat) (x : P) (ps : List P) : Except Err (List P) :=
  store (σ := Unit) { labels := S.labels, step := fun _ _ => none, zero := S.pzero, size0 := S.size0 } k x ps

/-- `__next__` (lines 187-265) -/
def next (S : Full σ R P L) (s : Mem σ R P) : Except Fail (R × Option P) × Mem σ R P :=
  match s.i with
  | none => (.error (.base .typeError), s)
  | some k =>
      if k < S.labels.length then
        let s := { s with counter := k }
        match S.step k s.mem with
        | none => (.error (.base .calcError), s)
        | some (r, m) =>
            let s := { s with mem := m }
            match store S.toSetup k r s.res with
            | .error e => (.error (.base e), s)
            | .ok res =>
                let s := { s with res := res }
                if S.points then
                  match S.pstep k r s.mem with
                  | none => (.error (.base .calcError), s)
                  | some (x, m) =>
                      let ps := points0 S s.pres
                      match storeP S k x ps with
                      | .error e => (.error (.base e), { s with mem := m, pres := some ps })
                      | .ok ps => finish S k r (some x) { s with mem := m, pres := some ps }
                else finish S k r none s
      else (.error (.base .stopIteration), { s with i := none, calls := s.calls ++ (List.range S.plugins).map .finalize })

/-- `for r in algo: ...`, left by the caller after at most `n` results -/
def forLoop (S : Full σ R P L) : Nat → Mem σ R P → List (R × Option P) × Option Fail × Mem σ R P
  | 0, s => ([], none, s)
  | n + 1, s =>
      match next S s with
      | (.error e, s) => ([], some e, s)
      | (.ok r, s) =>
          let o := forLoop S n s
          (r :: o.1, o.2)

def run (S : Full σ R P L) (n : Nat) (s : Mem σ R P) : List (R × Option P) × Option Fail × Mem σ R P := forLoop S n (iter S s)

/-- `algo.calc_farm()` (lines 345-358): the row of the current counter -/
def calcFarm (s : Mem σ R P) : Except Fail (Option R) :=
  match s.i with
  | none => .error .notIterating
  | some _ => .ok s.res[s.counter]?

end Foxes.SeqPlugins
