import Verif.Model.DataBox
/-
Model of the classes MData, FData and TData (foxes/core/data.py:313-776): the checks that they add to those of the base class (Model/DataBox.lean), the combined
positions TXYH, and the construction of target data from points.

Simplifications: values without storage (X, Y, H are views of TXYH in the code; that the stack may change the number type is not modelled); the caller's dictionaries
are not shared with the container.
-/
namespace Foxes.DataKinds
open Foxes.DataBox

inductive KErr
  | base (e : Err) | value | key | type
deriving DecidableEq, Repr

/-- MData has no checks of its own -/
inductive Kind
  | model | farm | target
deriving DecidableEq, Repr

variable {V : Type}

/-- `FData._run_entry_checks` after those of the base class (data.py:365-380) -/
def farmCheck (d : Data V) (name : String) : Option KErr :=
  match d.entries.lookup name with
  | none => some .key
  | some e =>
    if (d.sizes.lookup name).isSome ∨ name = "tname" ∨ name = "weight" then none
    else if e.arr.shape.length < 2 then some .value
    else match e.dims with
      | none => some .type
      | some ds => if ds.take 2 ≠ ["state", "turbine"] then some .value else none

/-- the dimensions of the target points -/
def targetDims : List String := ["state", "target", "target_point", "xyh"]

/-- `TData._run_entry_checks` after those of the base class (data.py:458-508); a missing number of states is `None`, which no shape contains -/
def targetCheck (d : Data V) (name : String) : Option KErr :=
  match d.entries.lookup name with
  | none => some .key
  | some e =>
    if name = "targets" then
      match d.sizes.lookup "target", d.sizes.lookup "target_point" with
      | some nt, some np =>
        if e.dims ≠ some targetDims then some .value
        else if e.arr.shape.map some ≠ [d.sizes.lookup "state", some nt, some np, some 3] then some .value
        else none
      | _, _ => some .key
    else if name = "tpoint_weights" then
      match d.sizes.lookup "target_point" with
      | some np =>
        if e.dims ≠ some ["target_point"] then some .value
        else if e.arr.shape ≠ [np] then some .value
        else none
      | none => some .key
    else if (d.entries.lookup "targets").isNone then some .key
    else if (d.entries.lookup "tpoint_weights").isNone then some .key
    else if (d.sizes.lookup name).isSome then none
    else match d.sizes.lookup "target", d.sizes.lookup "target_point" with
      | some _, some _ =>
        if e.arr.shape.length < 3 then some .value
        else match e.dims with
          | none => some .type
          | some ds => if ds.take 3 ≠ ["state", "target", "target_point"] then some .value else none
      | _, _ => some .key

/-- the checks that the class adds -/
def extra : Kind → Data V → String → Option KErr
  | .model, _, _ => none
  | .farm, d, n => farmCheck d n
  | .target, d, n => targetCheck d n

/-- `_run_entry_checks` of the class -/
def checks (k : Kind) (d : Data V) (name : String) (e : Entry V) : Data V × Option KErr :=
  match entryChecks d name e with
  | (d', some x) => (d', some (.base x))
  | (d', none) => (d', extra k d' name)

/-- `np.stack([x, y, h], axis=-1)` -/
def stackArr (x y h : Arr V) : Arr V :=
  ⟨x.shape ++ [3], fun idx => match idx.getLastD 0 with | 0 => x.val idx.dropLast | 1 => y.val idx.dropLast | _ => h.val idx.dropLast⟩

/-- the combined positions (data.py:126-140) -/
def combine (d : Data V) : Except KErr (Data V) :=
  match d.entries.lookup "txyh", d.entries.lookup "X", d.entries.lookup "Y", d.entries.lookup "H" with
  | none, some x, some y, some h =>
    if x.dims = y.dims ∧ x.dims = h.dims then
      if x.arr.shape = y.arr.shape ∧ x.arr.shape = h.arr.shape then
        match x.dims with
        | none => .error .type
        | some ds => .ok { d with entries := insertKey "txyh" ⟨stackArr x.arr y.arr h.arr, some (ds ++ ["xyh"])⟩ d.entries }
      else .error .value
    else .ok d
  | _, _, _, _ => .ok d

/-- the checks after changes (data.py:382-390, 510-527) -/
def final (k : Kind) (d : Data V) : Option KErr :=
  match k with
  | .model => none
  | .farm => if d.entries.isEmpty then none else if (["state", "turbine"].all fun c => (d.sizes.lookup c).isSome) then none else some .key
  | .target =>
    if d.entries.isEmpty then none
    else if (["targets", "tpoint_weights"].all fun c => (d.entries.lookup c).isSome) then
      if (["state", "target", "target_point"].all fun c => (d.sizes.lookup c).isSome) then none else some .key
    else some .key

/-- `_auto_update` of the class; the combination may end in an error -/
def update (k : Kind) (coord : ℕ → V) (d : Data V) : Data V × Option KErr :=
  match combine d with
  | .error x => (d, some x)
  | .ok d1 => let d2 := autoUpdate coord d1; (d2, final k d2)

/-- `add` (data.py:169-186) -/
def addK (k : Kind) (coord : ℕ → V) (d : Data V) (name : String) (e : Entry V) : Data V × Option KErr :=
  match checks k { d with entries := insertKey name e d.entries } name e with
  | (d2, some x) => (d2, some x)
  | (d2, none) => update k coord d2

/-- the loop of the constructor over the entries (data.py:65-66) -/
def initLoopK (k : Kind) (d : Data V) : List (String × Entry V) → Except KErr (Data V)
  | [] => .ok d
  | (v, e) :: l =>
    match checks k d v e with
    | (_, some x) => .error x
    | (d', none) => initLoopK k d' l

/-- the constructor (data.py:29-68) -/
def createK (k : Kind) (coord : ℕ → V) (es : List (String × Entry V)) (loopDims : List String) (i0 : Option ℕ) : Except KErr (Data V) :=
  match initLoopK k { entries := es, sizes := [], loopDims := loopDims, i0 := i0 } es with
  | .error x => .error x
  | .ok d =>
    match update k coord d with
    | (_, some x) => .error x
    | (d', none) => .ok d'

/-- `get_slice` for one variable (data.py:188-245) -/
def getSliceK (k : Kind) (coord : ℕ → V) (d : Data V) (dim : String) (s : Sel) : Except KErr (Data V) :=
  match sliceEntries dim s d.entries with
  | .error x => .error (.base x)
  | .ok es =>
    match sliceI0 d dim s with
    | .error x => .error (.base x)
    | .ok i0 => createK k coord es d.loopDims i0

/-- the entries that `from_tpoints` and `from_points` set after those of the caller (data.py:627-640, 684-695): `data[k] = ...` -/
def targetEntries (data : List (String × Entry V)) (targets weights empty : Arr V) (vars : List String) : List (String × Entry V) :=
  vars.foldl (fun es v => insertKey v ⟨empty, some ["state", "target", "target_point"]⟩ es)
    (insertKey "tpoint_weights" ⟨weights, some ["target_point"]⟩ (insertKey "targets" ⟨targets, some targetDims⟩ data))

/-- `from_tpoints` (data.py:643-699); `nan` is the missing value -/
def fromTpoints (coord : ℕ → V) (nan : V) (tpoints weights : Arr V) (data : List (String × Entry V)) (vars : List String) : Except KErr (Data V) :=
  match tpoints.shape with
  | [s, t, p, 3] => createK .target coord (targetEntries data tpoints weights ⟨[s, t, p], fun _ => nan⟩ vars) ["state", "target"] none
  | _ => .error .value

/-- `from_points` (data.py:589-641): one point of weight one for each target, `points[:, :, None, :]` -/
def fromPoints (coord : ℕ → V) (nan one : V) (points : Arr V) (data : List (String × Entry V)) (vars : List String) : Except KErr (Data V) :=
  match points.shape with
  | [s, t, 3] =>
    createK .target coord (targetEntries data ⟨[s, t, 1, 3], fun idx => points.val (idx.eraseIdx 2)⟩ ⟨[1], fun _ => one⟩ ⟨[s, t, 1], fun _ => nan⟩ vars)
      ["state", "target"] none
  | _ => .error .value

end Foxes.DataKinds
