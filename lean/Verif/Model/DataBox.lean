import Mathlib.Data.List.Basic
import Mathlib.Data.Int.Order.Basic
/-
Model of the data containers (foxes/core/data.py, class Data): entries with named dimensions, the table of sizes, additions, and slices. Not modelled here (see DataKinds.lean): the
combined entry TXYH (lines 126-140), the additional checks of the classes FData and TData, and that entries may be written directly, past all checks.
-/
namespace Foxes.DataBox

inductive Err
  | valueError | indexError
deriving DecidableEq, Repr

/-- an array: shape, and values as function of the list of indices -/
structure Arr (V : Type) where
  shape : List ℕ
  val : List ℕ → V

/-- an entry: array and dimensions; none for entries without dimensions -/
structure Entry (V : Type) where
  arr : Arr V
  dims : Option (List String)

/-- the container (data.py:40-67) -/
structure Data (V : Type) where
  entries : List (String × Entry V)
  sizes : List (String × ℕ)
  loopDims : List String
  i0 : Option ℕ

variable {V : Type}

/-- `d[k] = x` for a dictionary that keeps the order of insertion -/
def insertKey {α : Type} (k : String) (x : α) : List (String × α) → List (String × α)
  | [] => [(k, x)]
  | (k', y) :: l => if k' = k then (k, x) :: l else (k', y) :: insertKey k x l

/-- `np.squeeze(data, axis=li)` -/
def Arr.squeeze (a : Arr V) (li : ℕ) : Arr V := ⟨a.shape.eraseIdx li, fun idx => a.val (idx.insertIdx li 0)⟩

/-- the loop that removes axes of size one (data.py:154-158); each removal starts again from the given array `a`, so the last one wins -/
def squeezeLoop (a : Arr V) (dims : List String) : ℕ → List String → Arr V → Except Err (Arr V)
  | _, [], r => .ok r
  | li, l :: ls, r =>
    match a.shape[li]? with
    | none => .error .indexError
    | some n => if n = 1 ∧ dims[li]? ≠ some l then squeezeLoop a dims (li + 1) ls (a.squeeze li) else squeezeLoop a dims (li + 1) ls r

/-- the array that is kept (data.py:153-158) -/
def kept (loopDims dims : List String) (a : Arr V) : Except Err (Arr V) :=
  if dims.length ≠ a.shape.length then squeezeLoop a dims 0 loopDims a else .ok a

/-- the loop that checks the sizes (data.py:159-168); the sizes that were set before an error stay -/
def checkSizes (sizes : List (String × ℕ)) : List String → List ℕ → List (String × ℕ) × Option Err
  | [], _ => (sizes, none)
  | _ :: _, [] => (sizes, some .indexError)
  | c :: cs, n :: ns =>
    match sizes.lookup c with
    | none => checkSizes (insertKey c n sizes) cs ns
    | some m =>
      if m = 1 then checkSizes (insertKey c n sizes) cs ns
      else if n = 1 then checkSizes sizes cs ns
      else if m ≠ n then (sizes, some .valueError)
      else checkSizes sizes cs ns

/-- `_run_entry_checks` (data.py:151-168) for an entry that is stored already -/
def entryChecks (d : Data V) (name : String) (e : Entry V) : Data V × Option Err :=
  match e.dims with
  | none => (d, none)
  | some dims =>
    match kept d.loopDims dims e.arr with
    | .error x => (d, some x)
    | .ok a =>
      let r := checkSizes d.sizes dims a.shape
      ({ d with entries := insertKey name ⟨a, some dims⟩ d.entries, sizes := r.1 }, r.2)

/-- the names of dimensions of the entries, in order of appearance -/
def dimNames (es : List (String × Entry V)) : List String := es.flatMap (fun e => e.2.dims.getD [])

/-- index coordinates for dimensions without entry (data.py:142-149): `np.arange(size)` -/
def autoUpdate (coord : ℕ → V) (d : Data V) : Data V :=
  { d with entries := (dimNames d.entries).foldl (fun es c =>
      if (es.lookup c).isSome then es
      else match d.sizes.lookup c with
        | none => es
        | some n => insertKey c ⟨⟨[n], fun idx => coord (idx.headD 0)⟩, some [c]⟩ es) d.entries }

/-- `add` (data.py:170-186): the entry is stored before it is checked -/
def add (coord : ℕ → V) (d : Data V) (name : String) (e : Entry V) : Data V × Option Err :=
  let d1 := { d with entries := insertKey name e d.entries }
  match entryChecks d1 name e with
  | (d2, some x) => (d2, some x)
  | (d2, none) => (autoUpdate coord d2, none)

/-- the loop of the constructor over the entries (data.py:64-66) -/
def initLoop (d : Data V) : List (String × Entry V) → Except Err (Data V)
  | [] => .ok d
  | (v, e) :: l =>
    match entryChecks d v e with
    | (_, some x) => .error x
    | (d', none) => initLoop d' l

/-- the constructor (data.py:40-68) -/
def create (coord : ℕ → V) (entries : List (String × Entry V)) (loopDims : List String) (i0 : Option ℕ) : Except Err (Data V) :=
  match initLoop { entries := entries, sizes := [], loopDims := loopDims, i0 := i0 } entries with
  | .error x => .error x
  | .ok d => .ok (autoUpdate coord d)

/-- `n_states` (data.py:70-81) and other sizes -/
def Data.size (d : Data V) (c : String) : Option ℕ := d.sizes.lookup c

/-- A selection along a dimension: `start:stop`, or a list of indices. -/
inductive Sel
  | range (start stop : Option ℤ)
  | picks (l : List ℕ)

/-- a bound of a slice as Python takes it: negative numbers count from the end, and the result is cut to the axis -/
def bound (n : ℕ) (dflt : ℕ) : Option ℤ → ℕ
  | none => dflt
  | some k => if 0 ≤ k then min k.toNat n else (k + n).toNat

/-- the indices that a selection picks from an axis of length `n` -/
def Sel.idx (s : Sel) (n : ℕ) : Except Err (List ℕ) :=
  match s with
  | .range a b => let i := bound n 0 a; .ok ((List.range (bound n n b - i)).map (· + i))
  | .picks l => if l.all (· < n) then .ok l else .error .indexError

/-- the selected indices for each axis (data.py:217-219) -/
def axisIdx (dim : String) (s : Sel) : List String → List ℕ → Except Err (List (List ℕ))
  | c :: cs, n :: ns =>
    match (if c = dim then s.idx n else .ok (List.range n)), axisIdx dim s cs ns with
    | .ok l, .ok ls => .ok (l :: ls)
    | .error e, _ => .error e
    | _, .error e => .error e
  | [], ns => .ok (ns.map List.range)
  | _ :: _, [] => .error .indexError

/-- `arr[hs]` -/
def Arr.take (a : Arr V) (sel : List (List ℕ)) : Arr V := ⟨sel.map List.length, fun idx => a.val (List.zipWith (fun l i => l.getD i 0) sel idx)⟩

/-- the sliced entries (data.py:212-223); entries without dimensions are dropped; `dim_map` is not modelled -/
def sliceEntries (dim : String) (s : Sel) : List (String × Entry V) → Except Err (List (String × Entry V))
  | [] => .ok []
  | (v, e) :: l =>
    match e.dims with
    | none => sliceEntries dim s l
    | some dims =>
      match axisIdx dim s dims e.arr.shape, sliceEntries dim s l with
      | .ok sel, .ok r => .ok ((v, ⟨e.arr.take sel, some dims⟩) :: r)
      | .error x, _ => .error x
      | _, .error x => .error x

/-- consecutive numbers -/
def consecutive (l : List ℕ) : Bool := decide (l = (List.range l.length).map (· + l.headD 0))

/-- the new value of `states_i0` (data.py:226-239) -/
def sliceI0 (d : Data V) (dim : String) (s : Sel) : Except Err (Option ℕ) :=
  match d.i0 with
  | none => .ok none
  | some i0 =>
    if dim ≠ "state" then .ok none
    else match s.idx ((d.size "state").getD 0) with
      | .error e => .error e
      | .ok l =>
        let sts := l.map (· + i0)
        match sts with
        | [] => .error .indexError
        | x :: _ => if sts.length = 1 ∨ consecutive sts then .ok (some x) else .error .valueError

/-- `get_slice` (data.py:188-243) for one variable -/
def getSlice (coord : ℕ → V) (d : Data V) (dim : String) (s : Sel) : Except Err (Data V) :=
  match sliceEntries dim s d.entries with
  | .error x => .error x
  | .ok es =>
    match sliceI0 d dim s with
    | .error x => .error x
    | .ok i0 => create coord es d.loopDims i0

end Foxes.DataBox
