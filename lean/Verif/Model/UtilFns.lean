import Mathlib.Analysis.SpecialFunctions.Log.Basic
/-
Model of `foxes/utils/subclasses.py` (all_subclasses, new_cls, new_instance), `foxes/utils/exec_python.py` (exec_python) and `foxes/utils/regularize.py` (sqrt_reg).

Simplifications: classes are given by their direct subclasses and names; the order in which a set is iterated is an unknown permutation; strings are lists of characters, indicator and new line are single
characters; executing a python command is an abstract function on the name space, which tells the name space afterwards and whether it failed; real numbers.
-/
namespace Foxes.UtilFns

/-! ### Classes by name -/

inductive Err
  | key | value | exec
deriving DecidableEq, Repr

/-- `all_subclasses` (subclasses.py:1-19), for hierarchies of this depth: the direct subclasses and all those of each of them -/
def allSubs {C : Type} (subs : C → List C) : ℕ → C → List C
  | 0, _ => []
  | n + 1, c => subs c ++ (subs c).flatMap (allSubs subs n)

/-- `new_cls` (subclasses.py:22-59): no name gives nothing; else the first class with that name, in the order of the set -/
def newCls {C : Type} [DecidableEq C] (subs : C → List C) (depth : ℕ) (nameOf : C → String) (order : List C → List C) (base : C) (name : Option String) : Except Err (Option C) :=
  match name with
  | none => .ok none
  | some s =>
    match (order (allSubs subs depth base).dedup).find? fun c => nameOf c = s with
    | some c => .ok (some c)
    | none => .error .key

/-! ### Python strings -/

inductive Kind
  | list | tuple | dict
deriving DecidableEq

mutual
/-- a string, something opaque, or a list, tuple or dictionary; the keys are only of meaning for dictionaries -/
inductive Py
  | str (s : List Char)
  | other (n : ℕ)
  | node (k : Kind) (es : PyL)
inductive PyL
  | nil
  | cons (key : ℕ) (v : Py) (r : PyL)
end

variable {E : Type}

/-- the commands one after the other, until one fails (exec_python.py:49-50) -/
def execAll (exec : List Char → E → E × Bool) : List (List Char) → E → E × Bool
  | [], e => (e, true)
  | c :: cs, e => match exec c e with
    | (e', true) => execAll exec cs e'
    | (e', false) => (e', false)

/-- a string (exec_python.py:36-51) -/
def execStr (exec : List Char → E → E × Bool) (get : E → List Char → Option Py) (ind nl : Char) (s : List Char) (e : E) : E × Except Err Py :=
  match s with
  | [] => (e, .ok (.str []))
  | h :: a =>
    if a = [] ∨ h ≠ ind then (e, .ok (.str (h :: a)))
    else if ind ∉ a then
      match exec a e with
      | (e', true) => (e', .ok (.str (h :: a)))
      | (e', false) => (e', .error .exec)
    else match a.splitOn ind with
      | [v, b] =>
        match execAll exec (b.splitOn nl) e with
        | (e', false) => (e', .error .exec)
        | (e', true) => match get e' v with
          | some x => (e', .ok x)
          | none => (e', .error .key)
      | _ => (e, .error .value)

mutual
/-- inside a structure (exec_python.py:52-58): the default new line `;` and the shared name space -/
def execIn (exec : List Char → E → E × Bool) (get : E → List Char → Option Py) (ind : Char) : Py → E → E × Except Err Py
  | .str s, e => execStr exec get ind ';' s e
  | .other n, e => (e, .ok (.other n))
  | .node k es, e =>
    match execL exec get ind es e with
    | (e', .error x) => (e', .error x)
    | (e', .ok es') => (e', .ok (.node k es'))
/-- the elements in order -/
def execL (exec : List Char → E → E × Bool) (get : E → List Char → Option Py) (ind : Char) : PyL → E → E × Except Err PyL
  | .nil, e => (e, .ok .nil)
  | .cons key v r, e =>
    match execIn exec get ind v e with
    | (e', .error x) => (e', .error x)
    | (e', .ok v') =>
      match execL exec get ind r e' with
      | (e2, .error x) => (e2, .error x)
      | (e2, .ok r') => (e2, .ok (.cons key v' r'))
end

/-- `exec_python` (exec_python.py:7-59) with the name space of the caller, if given, and the shared one: both afterwards, and the result -/
def execPython (exec : List Char → E → E × Bool) (get : E → List Char → Option Py) (ind nl : Char) (own : Option E) (shared : E) (s : Py) : Option E × E × Except Err Py :=
  match s with
  | .str s =>
    match own with
    | some o => let r := execStr exec get ind nl s o; (some r.1, shared, r.2)
    | none => let r := execStr exec get ind nl s shared; (none, r.1, r.2)
  | s => let r := execIn exec get ind s shared; (own, r.1, r.2)

/-! ### Regularised root -/

/-- `sqrt_reg` (regularize.py:4-25) -/
noncomputable def sqrtReg (x0 x : ℝ) : ℝ :=
  let b := x0 * (1 - Real.log x0)
  let y := Real.exp ((x - b) / x0)
  Real.sqrt (if x < x0 then y else x)

end Foxes.UtilFns
