import Verif.Model.DeltaWd
import Mathlib.Algebra.Order.Group.Abs
/-
Model of foxes/algorithms/iterative/iterative.py:163-340 and
foxes/algorithms/iterative/models/convergence.py.
-/
namespace Foxes.Iterative

/-! ### The iteration loop -/

variable {Res : Type}

/-- What the loop depends on.
* `sweep k prev`: the farm results of `super().calc_farm` in iteration `k`, given the previous ones
  (`farm_data=self.__prev_farm_results`), in downwind order
* `blocked k`: value of `eval_conv_block()` in iteration `k`
* `crit`: the convergence criterion, `none` for `conv_crit=None` -/
structure Setup (Res : Type) where
  sweep : Nat → Option Res → Res
  blocked : Nat → Bool
  crit : Option (Option Res → Res → Bool)

/-- The algorithm's fields after the loop: `_it`, `__prev_farm_results`, the local `fres`. -/
structure Out (Res : Type) where
  it : Nat
  prev : Option Res
  fres : Res

/-- is the loop left after this iteration? (iterative.py:307-321) -/
def stops (s : Setup Res) (k : Nat) (prev : Option Res) (fres : Res) : Bool :=
  match s.crit with
  | none => false
  | some conv => if s.blocked k then false else conv prev fres

/-- `while self._it < self.max_it` (iterative.py:298-321), entered with `_it = k - 1` and `r + 1`
iterations left, i.e. `max_it = k + r`. -/
def loop (s : Setup Res) : Nat → Nat → Option Res → Out Res
  | 0, k, prev => { it := k, prev := prev, fres := s.sweep k prev }
  | r + 1, k, prev =>
      let fres := s.sweep k prev
      if stops s k prev fres then { it := k, prev := prev, fres := fres }
      else loop s r (k + 1) (some fres)

/-- the loop from the start (iterative.py:294-297); `max_it >= 0` -/
def run (s : Setup Res) (maxIt : Nat) : Out Res := loop s maxIt 0 none

/-- Which model list the final run uses (`_collect_farm_models`, iterative.py:172-244). -/
inductive FinalKind
  | mlist0     -- the list of iteration 0, built with `outputs=False`, without ReorderFarmOutput
  | reorder    -- only ReorderFarmOutput
deriving DecidableEq, Repr

def finalKind (it : Nat) (ambient reamb : Bool) : FinalKind :=
  if it = 0 then .mlist0 else if ambient || reamb then .mlist0 else .reorder

/-- The final run (iterative.py:323-326): farm data are loaded from `__prev_farm_results`.
`rerun` stands for running the list of iteration 0 once more, `reorder` for the change back to farm
order. In the last case `__prev_farm_results` is never `None`. -/
def final (o : Out Res) (ambient reamb : Bool) (rerun : Option Res → Res) (reorder : Res → Res) : Res :=
  match finalKind o.it ambient reamb, o.prev with
  | .mlist0, prev => rerun prev
  | .reorder, some prev => reorder prev
  | .reorder, none => rerun none

/-! ### Convergence criteria -/

/-- A farm variable: per variable name the flat array of values, `none` is NaN. -/
abbrev Results (K : Type) := String → List (Option K)

section Conv
variable {K : Type} [Field K] [LinearOrder K]

/-- `np.max` of absolute values: NaN if any value is NaN (convergence.py:235-237).
Simplification: numpy raises for empty arrays; result arrays have at least one state and turbine. -/
def maxAbs : List (Option K) → Option K
  | [] => some 0
  | d :: l =>
      match d, maxAbs l with
      | some d, some m => some (max |d| m)
      | _, _ => none

/-- elementwise difference of two arrays of equal shape; NaN if one of them is NaN -/
def deltas (isWd : Bool) (x0 x : List (Option K)) : List (Option K) :=
  List.zipWith (fun a b =>
    match a, b with
    | some a, some b => some (if isWd then WindDir.deltaWd a b else b - a)
    | _, _ => none) x0 x

/-- `ConvVarDelta.check_converged` (convergence.py:222-247). The early `break` when `verbosity` is 0
does not change the returned value. -/
def convVarDelta (limits : List (String × K)) (wdVars : List String) (prev : Option (Results K)) (res : Results K) :
    Bool :=
  match prev with
  | none => false
  | some prev => limits.foldl (fun ok vl =>
      ok && (match maxAbs (deltas (wdVars.contains vl.1) (prev vl.1) (res vl.1)) with
        | none => false
        | some check => decide (check ≤ vl.2))) true

/-- `ConvCritList.check_converged` (convergence.py:136-142) -/
def convList : List (Option (Results K) → Results K → Bool) → Option (Results K) → Results K → Bool
  | [], _, _ => true
  | c :: cs, prev, res => if !(c prev res) then false else convList cs prev res

end Conv

end Foxes.Iterative
