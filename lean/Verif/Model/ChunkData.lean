import Verif.Model.DataBox
import Mathlib.Algebra.BigOperators.Group.Finset.Basic
import Mathlib.Algebra.Order.Field.Basic
/-
Model of the containers for farm data and target data, and of the data that an engine hands over to the calculation of one chunk:
foxes/core/data.py 126-140 and 248-776 (classes Data, MData, FData, TData), foxes/core/engine.py 321-419 (get_chunk_input_data) and
foxes/core/algorithm.py 385-434 (new_point_data).
Simplified: values are taken without their storage, so that copies and views are the same; dimension tuples are lists; the set of missing output variables is
added in the order of the list of output variables.
-/
namespace Foxes.ChunkData
open Foxes.DataBox

inductive Err
  | base (e : DataBox.Err)   -- raised by the checks of the class Data
  | value | key | index | type
deriving DecidableEq, Repr

/-- the container classes MData, FData and TData (data.py:310-334, 337-420, 430-776) -/
inductive Kind
  | model | farm | target
deriving DecidableEq, Repr

variable {V : Type}

/-- `self[name]` and `self.dims[name]` after the checks of the base class; additional checks of FData (data.py:365-381) -/
def farmCheck (d : Data V) (name : String) : Option Err :=
  match d.entries.lookup name with
  | none => some .key
  | some e =>
    if (d.sizes.lookup name).isSome ∨ name = "tname" ∨ name = "weight" then none
    else if e.arr.shape.length < 2 then some .value
    else match e.dims with
      | none => some .type
      | some ds => if ds.length < 2 ∨ ds.take 2 ≠ ["state", "turbine"] then some .value else none

/-- additional checks of TData (data.py:457-508) -/
def targetCheck (d : Data V) (name : String) : Option Err :=
  match d.entries.lookup name with
  | none => some .key
  | some e =>
    if name = "targets" then
      match d.sizes.lookup "target", d.sizes.lookup "target_point" with
      | some nt, some np =>
        if e.dims ≠ some ["state", "target", "target_point", "xyh"] then some .value
        else if e.arr.shape.map some ≠ [d.sizes.lookup "state", some nt, some np, some 3] then some .value else none
      | _, _ => some .key
    else if name = "tpoint_weights" then
      match d.sizes.lookup "target_point" with
      | none => some .key
      | some np =>
        if e.dims ≠ some ["target_point"] then some .value
        else if e.arr.shape ≠ [np] then some .value else none
    else if (d.entries.lookup "targets").isNone then some .key
    else if (d.entries.lookup "tpoint_weights").isNone then some .key
    else if (d.sizes.lookup name).isSome then none
    else
      match d.sizes.lookup "target", d.sizes.lookup "target_point" with
      | some _, some _ =>
        if e.arr.shape.length < 3 then some .value
        else match e.dims with
          | none => some .type
          | some ds => if ds.length < 3 ∨ ds.take 3 ≠ ["state", "target", "target_point"] then some .value else none
      | _, _ => some .key

/-- the additional checks of the three classes -/
def classCheck (k : Kind) (d : Data V) (name : String) : Option Err :=
  match k with
  | .model => none
  | .farm => farmCheck d name
  | .target => targetCheck d name

/-- `_run_entry_checks` of the classes -/
def checks (k : Kind) (d : Data V) (name : String) (e : Entry V) : Except Err (Data V) :=
  match entryChecks d name e with
  | (_, some x) => .error (.base x)
  | (d', none) => match classCheck k d' name with
    | some x => .error x
    | none => .ok d'

/-- `np.stack([x, y, h], axis=-1)`: the new last index selects the array -/
def stackLast (x y h : Arr V) : Arr V :=
  ⟨x.shape ++ [3], fun idx => if idx.getLastD 0 = 0 then x.val idx.dropLast else if idx.getLastD 0 = 1 then y.val idx.dropLast else h.val idx.dropLast⟩

/-- the combined entry TXYH (data.py:126-140); afterwards X, Y and H are views of it, with the same values -/
def stack (d : Data V) : Except Err (Data V) :=
  match d.entries.lookup "txyh", d.entries.lookup "X", d.entries.lookup "Y", d.entries.lookup "H" with
  | none, some x, some y, some h =>
    if x.dims = y.dims ∧ x.dims = h.dims then
      if x.arr.shape = y.arr.shape ∧ x.arr.shape = h.arr.shape then
        match x.dims with
        | none => .error .type
        | some ds => .ok { d with entries := insertKey "txyh" ⟨stackLast x.arr y.arr h.arr, some (ds ++ ["xyh"])⟩ d.entries }
      else .error .value
    else .ok d
  | _, _, _, _ => .ok d

/-- the checks after data changes of FData (data.py:383-391) and TData (data.py:510-529) -/
def lastCheck (k : Kind) (d : Data V) : Option Err :=
  if d.entries = [] then none
  else match k with
    | .model => none
    | .farm => if ["state", "turbine"].all (fun x => (d.sizes.lookup x).isSome) then none else some .key
    | .target =>
      if ["targets", "tpoint_weights"].all (fun x => (d.entries.lookup x).isSome) ∧
        ["state", "target", "target_point"].all (fun x => (d.sizes.lookup x).isSome) then none else some .key

/-- `_auto_update` of the classes -/
def update (k : Kind) (coord : ℕ → V) (d : Data V) : Except Err (Data V) := do
  let d1 ← stack d
  let d2 := autoUpdate coord d1
  match lastCheck k d2 with
  | some x => .error x
  | none => .ok d2

/-- the loop over the entries in the constructor (data.py:64-66) -/
def checkLoop (k : Kind) (d : Data V) : List (String × Entry V) → Except Err (Data V)
  | [] => .ok d
  | (v, e) :: l => match checks k d v e with
    | .error x => .error x
    | .ok d' => checkLoop k d' l

/-- the constructors (data.py:56-68) -/
def construct (k : Kind) (coord : ℕ → V) (entries : List (String × Entry V)) (loopDims : List String) (i0 : Option ℕ) : Except Err (Data V) :=
  match checkLoop k { entries := entries, sizes := [], loopDims := loopDims, i0 := i0 } entries with
  | .error x => .error x
  | .ok d => update k coord d

/-- `add` (data.py:170-186) -/
def addTo (k : Kind) (coord : ℕ → V) (d : Data V) (name : String) (e : Entry V) : Except Err (Data V) :=
  match checks k { d with entries := insertKey name e d.entries } name e with
  | .error x => .error x
  | .ok d' => update k coord d'

/-! ### Datasets -/

/-- A dataset: coordinates and data variables. -/
structure DS (V : Type) where
  coords : List (String × Entry V)
  vars : List (String × Entry V)

/-- the dimensions of a variable of a dataset -/
def dimsOf (e : Entry V) : List String := e.dims.getD []

/-- `a[start:stop]` -/
def slice0 (a : Arr V) (w : ℕ × ℕ) : Arr V :=
  ⟨(match a.shape with | [] => [] | n :: ns => (min w.2 n - min w.1 n) :: ns),
   fun idx => match a.shape, idx with
    | n :: _, i :: r => a.val ((i + min w.1 n) :: r)
    | _, _ => a.val idx⟩

/-- `a[:, start:stop]` -/
def slice1 (a : Arr V) (w : ℕ × ℕ) : Arr V :=
  ⟨(match a.shape with | m :: n :: ns => m :: (min w.2 n - min w.1 n) :: ns | s => s),
   fun idx => match a.shape, idx with
    | _ :: n :: _, i :: j :: r => a.val (i :: (j + min w.1 n) :: r)
    | _, _ => a.val idx⟩

/-- the selection of states, if there is one -/
def sliceOpt (a : Arr V) : Option (ℕ × ℕ) → Arr V
  | none => a
  | some w => slice0 a w

/-- `a[:, None]` for one axis -/
def addAxis (a : Arr V) : Arr V := ⟨a.shape ++ [1], fun idx => a.val idx.dropLast⟩

/-- a coordinate (data.py:276-282) -/
def coordIn (w : Option (ℕ × ℕ)) (p : String × Entry V) : String × Entry V :=
  if p.1 = "state" then (p.1, ⟨sliceOpt p.2.arr w, p.2.dims⟩) else p

/-- a data variable (data.py:285-301) -/
def varIn (w : Option (ℕ × ℕ)) (p : String × Entry V) : Except Err (String × Entry V) :=
  if "state" ∈ dimsOf p.2 then
    if (dimsOf p.2).head? ≠ some "state" then .error .value
    else if p.1 = "weight" ∧ dimsOf p.2 = ["state"] then .ok (p.1, ⟨addAxis (sliceOpt p.2.arr w), some ["state", "turbine"]⟩)
    else .ok (p.1, ⟨sliceOpt p.2.arr w, p.2.dims⟩)
  else .ok p

/-- all variables, in order -/
def varsIn (w : Option (ℕ × ℕ)) : List (String × Entry V) → Except Err (List (String × Entry V))
  | [] => .ok []
  | p :: l => match varIn w p with
    | .error x => .error x
    | .ok q => match varsIn w l with
      | .error x => .error x
      | .ok qs => .ok (q :: qs)

/-- the number of states of the last variable that has states (data.py:284, 291) -/
def nStates (vars : List (String × Entry V)) : Option ℕ := ((vars.filter (fun p => decide ("state" ∈ dimsOf p.2))).getLast?).bind (fun p => p.2.arr.shape.head?)

/-- `np.arange(n)[start:stop]` -/
def arangeIn (coord : ℕ → V) (n : ℕ) (w : ℕ × ℕ) : Arr V := ⟨[min w.2 n - min w.1 n], fun idx => coord (idx.headD 0 + min w.1 n)⟩

/-- the state coordinate that is added if there is none (data.py:306-308) -/
def addStates (coord : ℕ → V) (w : Option (ℕ × ℕ)) (n : Option ℕ) (es : List (String × Entry V)) : List (String × Entry V) :=
  match es.lookup "state", w, n with
  | none, some w, some n => es ++ [("state", ⟨arangeIn coord n w, some ["state"]⟩)]
  | _, _, _ => es

/-- `from_dataset` of the base class (data.py:248-310); the callback acts on the dictionaries -/
def fromDataset (k : Kind) (coord : ℕ → V) (ds : DS V) (w : Option (ℕ × ℕ)) (cb : List (String × Entry V) → Except Err (List (String × Entry V)))
    (loopDims : List String) (i0 : Option ℕ) : Except Err (Data V) :=
  match varsIn w ds.vars with
  | .error x => .error x
  | .ok vs => match cb (ds.coords.map (coordIn w) ++ vs) with
    | .error x => .error x
    | .ok es => construct k coord (addStates coord w (nStates ds.vars) es) loopDims i0

/-- the state coordinate of the model data, for data without own states (data.py:413-415, 743-745) -/
def withState (mdata : Data V) (es : List (String × Entry V)) : Except Err (List (String × Entry V)) :=
  match es.lookup "state" with
  | some _ => .ok es
  | none => match mdata.entries.lookup "state" with
    | none => .error .key
    | some e => .ok (es ++ [("state", e)])

/-- missing output variables (engine.py:374-380, 399-406) -/
def fill (nan : V) (shape : List ℕ) (dims : List String) (outVars : List String) (es : List (String × Entry V)) : List (String × Entry V) :=
  es ++ (outVars.dedup.filter (fun o => (es.lookup o).isNone)).map (fun o => (o, ⟨⟨shape, fun _ => nan⟩, some dims⟩))

/-- one entry of target data (data.py:759-772) -/
def targetIn (w : ℕ × ℕ) (p : String × Entry V) : Except Err (String × Entry V) :=
  if "target" ∈ dimsOf p.2 then
    if dimsOf p.2 = ["target"] then .ok (p.1, ⟨slice0 p.2.arr w, p.2.dims⟩)
    else if (dimsOf p.2).length < 3 ∨ (dimsOf p.2).take 3 ≠ ["state", "target", "target_point"] then .error .value
    else .ok (p.1, ⟨slice1 p.2.arr w, p.2.dims⟩)
  else .ok p

/-- all entries, in order -/
def targetsIn (w : ℕ × ℕ) : List (String × Entry V) → Except Err (List (String × Entry V))
  | [] => .ok []
  | p :: l => match targetIn w p with
    | .error x => .error x
    | .ok q => match targetsIn w l with
      | .error x => .error x
      | .ok qs => .ok (q :: qs)

/-- `ds.sizes["target"]`: the size of the first axis with that name -/
def targetSize (ds : DS V) : Option ℕ :=
  (ds.coords ++ ds.vars).findSome? (fun p => ((dimsOf p.2).zip p.2.arr.shape).lookup "target")

/-- the callback of TData for a selection of targets (data.py:754-774) -/
def cbTargets (coord : ℕ → V) (ds : DS V) (w : ℕ × ℕ) (es : List (String × Entry V)) : Except Err (List (String × Entry V)) :=
  match es.lookup "target" with
  | some _ => targetsIn w es
  | none => match targetSize ds with
    | none => .error .key
    | some n => targetsIn w (es ++ [("target", ⟨⟨[n], fun idx => coord (idx.headD 0)⟩, some ["target"]⟩)])

/-- model data of a chunk (engine.py:363-370) -/
def chunkModel (coord : ℕ → V) (ds : DS V) (s : ℕ × ℕ) : Except Err (Data V) := fromDataset .model coord ds (some s) .ok ["state"] (some s.1)

/-- the callback for farm data in a calculation of the farm (engine.py:373-382, data.py:411-419) -/
def cbFarm (nan : V) (mdata : Data V) (nTurbines : ℕ) (s : ℕ × ℕ) (outVars : Option (List String)) (es : List (String × Entry V)) :
    Except Err (List (String × Entry V)) :=
  match withState mdata es with
  | .error x => .error x
  | .ok es => match outVars with
    | none => .ok es
    | some ov => .ok (fill nan [s.2 - s.1, nTurbines] ["state", "turbine"] ov es)

/-- farm data of a chunk (engine.py:372-393); output variables are only added if there is no point data -/
def chunkFarm (coord : ℕ → V) (nan : V) (mdata : Data V) (ds : DS V) (nTurbines : ℕ) (s : ℕ × ℕ) (outVars : Option (List String)) : Except Err (Data V) :=
  fromDataset .farm coord ds (some s) (cbFarm nan mdata nTurbines s outVars) ["state"] (some s.1)

/-- the callbacks for target data (data.py:738-774, engine.py:399-406) -/
def cbPoints (coord : ℕ → V) (nan : V) (mdata : Data V) (ds : DS V) (s t : ℕ × ℕ) (outVars : List String) (es : List (String × Entry V)) :
    Except Err (List (String × Entry V)) :=
  match cbTargets coord ds t es with
  | .error x => .error x
  | .ok es => match withState mdata es with
    | .error x => .error x
    | .ok es => .ok (fill nan [s.2 - s.1, t.2 - t.1, 1] ["state", "target", "target_point"] outVars es)

/-- target data of a chunk (engine.py:395-417) -/
def chunkPoints (coord : ℕ → V) (nan : V) (mdata : Data V) (ds : DS V) (s t : ℕ × ℕ) (outVars : List String) : Except Err (Data V) :=
  fromDataset .target coord ds (some s) (cbPoints coord nan mdata ds s t outVars) ["state", "target"] (some s.1)

/-- `get_chunk_input_data` (engine.py:321-419) -/
def chunkInput (coord : ℕ → V) (nan : V) (nTurbines : ℕ) (modelData farmData : DS V) (pointData : Option (DS V)) (s t : ℕ × ℕ) (outVars : List String) :
    Except Err (List (Data V)) :=
  match chunkModel coord modelData s with
  | .error x => .error x
  | .ok m => match pointData with
    | none => match chunkFarm coord nan m farmData nTurbines s (some outVars) with
      | .error x => .error x
      | .ok f => .ok [m, f]
    | some p => match chunkFarm coord nan m farmData nTurbines s none with
      | .error x => .error x
      | .ok f => match chunkPoints coord nan m p s t outVars with
        | .error x => .error x
        | .ok td => .ok [m, f, td]

/-- `n_states`, `n_turbines`, `n_targets`, `n_tpoints` are entries of the sizes (data.py:70-94, 531-555) -/
def nTargets (d : Data V) : Option ℕ := d.sizes.lookup "target"
def nTPoints (d : Data V) : Option ℕ := d.sizes.lookup "target_point"

/-- `targets_i0` (data.py:575-587): the first value of the target coordinate -/
def targetsI0 (d : Data V) : Option V := (d.entries.lookup "target").map (fun e => e.arr.val [0])

/-- `states_i0` (data.py:96-119) -/
def statesI0 (d : Data V) (counter : Bool) : Except Err (Option (ℕ ⊕ V)) :=
  match d.entries.lookup "state" with
  | none => .ok none
  | some e => if counter then match d.i0 with
      | none => .error .key
      | some i => .ok (some (.inl i))
    else .ok (some (.inr (e.arr.val [0])))

/-! ### Points -/

/-- the dictionary with points, weights and empty variables (data.py:632-641, 692-701) -/
def pointDict (nan : V) (tpoints tweights : Arr V) (vars : List String) (data : List (String × Entry V)) : List (String × Entry V) :=
  vars.foldl (fun es v => insertKey v ⟨⟨tpoints.shape.dropLast, fun _ => nan⟩, some ["state", "target", "target_point"]⟩ es)
    (insertKey "tpoint_weights" ⟨tweights, some ["target_point"]⟩ (insertKey "targets" ⟨tpoints, some ["state", "target", "target_point", "xyh"]⟩ data))

/-- `points[:, :, None, :]` -/
def pointAxis (points : Arr V) : Arr V := ⟨points.shape.insertIdx 2 1, fun idx => points.val (idx.eraseIdx 2)⟩

/-- `from_tpoints` (data.py:645-705): the dictionary of the caller afterwards, and the container -/
def fromTPoints (coord : ℕ → V) (nan : V) (tpoints tweights : Arr V) (data : List (String × Entry V)) (vars : List String) (i0 : Option ℕ) :
    List (String × Entry V) × Except Err (Data V) :=
  if tpoints.shape.length ≠ 4 ∨ tpoints.shape[3]? ≠ some 3 then (data, .error .value)
  else
    let es := pointDict nan tpoints tweights vars data
    (es, construct .target coord es ["state", "target"] i0)

/-- `from_points` (data.py:589-644) -/
def fromPoints (coord : ℕ → V) (nan one : V) (points : Arr V) (data : List (String × Entry V)) (vars : List String) (i0 : Option ℕ) :
    List (String × Entry V) × Except Err (Data V) :=
  if points.shape.length ≠ 3 ∨ points.shape[2]? ≠ some 3 then (data, .error .value)
  else
    let es := pointDict nan (pointAxis points) ⟨[1], fun _ => one⟩ vars data
    (es, construct .target coord es ["state", "target"] i0)

/-- the points for all states: points of shape (n_points, 3) are repeated (algorithm.py:412-416) -/
def repeatPoints (nStates : ℕ) (points : Arr V) : Arr V :=
  if points.shape.length = 2 ∧ points.shape[1]? = some 3 then ⟨nStates :: points.shape, fun idx => points.val idx.tail⟩ else points

/-- `new_point_data` (algorithm.py:385-434) -/
def newPointData (one : V) (points : Arr V) (indices : Option (Arr V)) (nStates : ℕ) : Except Err (DS V) :=
  let p := repeatPoints nStates points
  if p.shape.length ≠ 3 ∨ p.shape[0]? ≠ some nStates ∨ p.shape[2]? ≠ some 3 then .error (if p.shape.length < 2 then .index else .value)
  else .ok ⟨(match indices with | none => [] | some a => [("state", ⟨a, some ["state"]⟩)]),
    [("targets", ⟨pointAxis p, some ["state", "target", "target_point", "xyh"]⟩), ("tpoint_weights", ⟨⟨[1], fun _ => one⟩, some ["target_point"]⟩)]⟩

/-- `np.einsum("stp...,p->st...", a, w)` (data.py:573): axes of size one are repeated -/
def tpointMean {K : Type} [Field K] (a w : Arr K) : Except Err (Arr K) :=
  match a.shape, w.shape with
  | ns :: nt :: np :: r, [nw] =>
    if np = nw ∨ np = 1 ∨ nw = 1 then
      .ok ⟨ns :: nt :: r, fun idx => ∑ p ∈ Finset.range (if np = 1 then nw else np),
        a.val (idx.take 2 ++ [if np = 1 then 0 else p] ++ idx.drop 2) * w.val [if nw = 1 then 0 else p]⟩
    else .error .value
  | _, _ => .error .value

end Foxes.ChunkData
