import Verif.Model.DataBox
import Mathlib.Data.Rat.Floor
/-
Model of how wake and turbine models find their input (foxes/core/model.py, Model.get_data) and of the handler of the wake growth parameter
(foxes/core/wake_model.py, WakeK). The entries of the containers mdata, fdata, tdata are given for the one requested variable. Simplified: the sizes
n_states, n_turbines, n_targets, n_tpoints are given (the search for them in several objects, lines 343-361, is not modelled), indices into the axis of
turbines are in range, the wake frame is one that does not override get_wake_modelling_data (all but SeqDynamicWakes), and selections are boolean masks.
-/
namespace Foxes.GetData
open Foxes.DataBox (Arr)

inductive Err
  | valueError | keyError | indexError
deriving DecidableEq, Repr

/-- the `target` argument (model.py:363-384); `other` stands for any other string -/
inductive Target
  | stateTurbine | stateTarget | stateTargetTpoint | other
deriving DecidableEq, Repr

/-- one entry of a container: dimensions and array -/
structure Source (V : Type) where
  dims : List String
  arr : Arr V

/-- the entries that the wake frame leaves in tdata for time dependent wakes (dynamic_wakes.py:420-431) and what the algorithm offers (model.py:505-546) -/
structure Iter (V : Type) where
  /-- `tdata[STATES_SEL]`: the global index of the state in which the wake at (state, target, tpoint) was created -/
  statesSel : ℕ → ℕ → ℕ → ℕ
  /-- `tdata[STATE_SOURCE_ORDERI]` -/
  orderi : ℕ
  /-- index of the first state of the chunk -/
  i0 : ℕ
  /-- `tdata[TWEIGHTS]` -/
  weights : ℕ → ℚ
  /-- whether the algorithm has the attribute `farm_results_downwind` -/
  iterative : Bool
  /-- that attribute's values (global state, downwind order); none before the first iteration ended -/
  prev : Option (ℕ → ℕ → V)

/-- what a call of get_data sees -/
structure Ctx (V : Type) where
  nStates : ℕ
  nTurbines : ℕ
  nTargets : ℕ
  nTpoints : ℕ
  /-- the attribute of the model object with the variable's name -/
  own : Option (Arr V)
  mdata : Option (Source V)
  fdata : Option (Source V)
  /-- the variable's entry in tdata -/
  tdata : Option (Source V)
  /-- whether tdata was given at all -/
  hasTdata : Bool
  hasAlgo : Bool
  dw : Option ℕ
  iter : Option (Iter V)

variable {V : Type}

/-- `dims` (model.py:369-380) -/
def tDims : Target → List String
  | .stateTurbine => ["state", "turbine"]
  | .stateTarget => ["state", "target"]
  | .stateTargetTpoint => ["state", "target", "tpoint"]
  | .other => []

/-- `shp` (model.py:369-380) -/
def tShape (c : Ctx V) : Target → List ℕ
  | .stateTurbine => [c.nStates, c.nTurbines]
  | .stateTarget => [c.nStates, c.nTargets]
  | .stateTargetTpoint => [c.nStates, c.nTargets, c.nTpoints]
  | .other => []

/-- `_match_shape` (model.py:386-399) -/
def matchShape (shp : List ℕ) (a : Arr V) : Except Err (Arr V) :=
  if a.shape.length < shp.length then
    if (a.shape.zip shp).all (fun p => p.1 = 1 || p.1 = p.2) then
      .ok ⟨a.shape ++ List.replicate (shp.length - a.shape.length) 1, fun idx => a.val (idx.take a.shape.length)⟩
    else .error .valueError
  else if shp.length < a.shape.length then .error .valueError
  else .ok a

/-- the dimensions found by `_filter_dims` (model.py:401-412); the array that it finds is dropped by the callers -/
def filterDims (dw : Option ℕ) (s : Source V) : List String :=
  match dw with
  | none => s.dims
  | some _ => s.dims.filter (· ≠ "turbine")

/-- the branches for mdata and tdata (model.py:423-427 and 441-452): the dimensions are compared after the removal of the turbines, but the array is the one
of the container, not the one at the turbine -/
def fromSource (c : Ctx V) (t : Target) (s : Source V) : Except Err (Option (Arr V)) :=
  let d := filterDims c.dw s
  if d.length ≤ (tDims t).length ∧ d = (tDims t).take d.length then (matchShape (tShape c t) s.arr).map some else .ok none

/-- column `j` of a state-turbine array, `a[:, j]` -/
def column (a : Arr V) (j : ℕ) : Arr V := ⟨a.shape.take 1, fun idx => a.val [idx.headD 0, j]⟩

/-- `get_wake_modelling_data` (wake_frame.py:145-156) without `states0`: `fdata[variable][:, j, None]`, or with one more axis -/
def wakeData (t : Target) (a : Arr V) (j : ℕ) : Arr V :=
  ⟨a.shape.take 1 ++ (if t = .stateTargetTpoint then [1, 1] else [1]), fun idx => a.val [idx.headD 0, j]⟩

/-- whether the variable's entry of fdata has dimensions state, turbine -/
def isST (s : Source V) : Bool := s.dims = ["state", "turbine"]

/-- one letter of `lookup` (model.py:415-473) -/
def look (c : Ctx V) (t : Target) (l : Char) : Except Err (Option (Arr V)) :=
  if l = 's' then
    match c.own with
    | some a => (matchShape (tShape c t) a).map some
    | none => .ok none
  else if l = 'm' then
    match c.mdata with
    | some s => fromSource c t s
    | none => .ok none
  else if l = 'f' then
    match c.fdata with
    | some s =>
      if isST s then
        if t = .stateTurbine then .ok (some s.arr)
        else match c.dw with
          | some j => (matchShape (tShape c t) (column s.arr j)).map some
          | none => .ok none
      else .ok none
    | none => .ok none
  else if l = 't' then
    match c.tdata with
    | some s => if t ≠ .stateTurbine then fromSource c t s else .ok none
    | none => .ok none
  else if l = 'w' then
    match c.fdata, c.dw with
    | some s, some j =>
      if isST s ∧ c.hasTdata = true ∧ c.hasAlgo = true then (matchShape (tShape c t) (wakeData t s.arr j)).map some else .ok none
    | _, _ => .ok none
  else .ok none

/-- the loop over `lookup` (model.py:414-476) -/
def search (c : Ctx V) (t : Target) : List Char → Except Err (Option (Arr V))
  | [] => .ok none
  | l :: ls =>
    match look c t l with
    | .error e => .error e
    | .ok (some a) => .ok (some a)
    | .ok none => search c t ls

/-- the index that numpy reads when an axis of length `n` is broadcast -/
def bIdx (shape idx : List ℕ) : List ℕ := List.zipWith (fun n i => if n = 1 then 0 else i) shape idx

/-- `tmp = np.zeros(shp); tmp[:] = out` (model.py:497-500, 603-606) for arrays of as many axes -/
def upcast (shp : List ℕ) (a : Arr V) : Except Err (Arr V) :=
  if a.shape.length = shp.length ∧ (a.shape.zip shp).all (fun p => p.1 = 1 || p.1 = p.2) then .ok ⟨shp, fun idx => a.val (bIdx a.shape idx)⟩
  else .error .valueError

/-- all indices of an array, last axis fastest -/
def indices : List ℕ → List (List ℕ)
  | [] => [[]]
  | n :: ns => (List.range n).flatMap (fun i => (indices ns).map (i :: ·))

/-- the state of wake creation that is used at an index (model.py:522-526): per target point, or for targets with several points the rounded mean -/
def creation (c : Ctx V) (it : Iter V) (t : Target) (idx : List ℕ) : ℕ :=
  let i := idx.headD 0
  let j := (idx.drop 1).headD 0
  if t = .stateTarget then
    if c.nTpoints = 1 then it.statesSel i j 0
    else ⌊((List.range c.nTpoints).map (fun p => (it.statesSel i j p : ℚ) * it.weights p)).sum + 1 / 2⌋.toNat
  else it.statesSel i j ((idx.drop 2).headD 0)

/-- data from other chunks (model.py:486-553), given the array found so far -/
def fromIteration (c : Ctx V) (it : Iter V) (t : Target) (f : Source V) (out : Arr V) : Except Err (Arr V) :=
  let shp := tShape c t
  match (if out.shape = shp then .ok out else upcast shp out), c.dw with
  | .error e, _ => .error e
  | .ok _, none => .error .keyError
  | .ok out, some j =>
    if it.orderi ≠ j then .error .valueError
    else if c.hasAlgo = false then .error .valueError
    else
      let cells := (indices shp).map (creation c it t)
      if cells.any (· < it.i0) && !it.iterative then .error .keyError
      else if cells.any (fun s => it.i0 ≤ s && c.nStates ≤ s - it.i0) then .error .indexError
      else
        .ok ⟨shp, fun idx =>
          let s := creation c it t idx
          if s < it.i0 then
            match it.prev with
            | none => out.val idx
            | some P => P s j
          else f.arr.val [s - it.i0, j]⟩

/-- the shape after `_upcast_sel` (model.py:569-578): axes on which the mask has more than one entry get the target's size -/
def selShape (shp mshape oshape : List ℕ) : Except Err (List ℕ) :=
  if ((mshape.zip shp).take oshape.length).all (fun p => p.1 ≤ 1 || p.1 = p.2) then
    .ok ((oshape.zip (shp.zip ((mshape ++ List.replicate oshape.length 1).take oshape.length))).map (fun p => if 1 < p.2.2 then p.2.1 else p.1))
  else .error .valueError

/-- `out[mask]` for a boolean mask (model.py:588-601), after the broadcast of `_upcast_sel`; the new `shp` is returned, too -/
def select (shp : List ℕ) (mask : Arr Bool) (out : Arr V) : Except Err (Arr V × List ℕ) :=
  if out.shape.length < mask.shape.length then .error .valueError
  else match selShape shp mask.shape out.shape with
  | .error e => .error e
  | .ok chp =>
    match (if chp = out.shape then .ok out else upcast chp out) with
    | .error e => .error e
    | .ok out =>
    if out.shape.take mask.shape.length ≠ mask.shape then .error .indexError
    else
      let hits := (indices mask.shape).filter mask.val
      .ok (⟨hits.length :: out.shape.drop mask.shape.length, fun idx => out.val ((hits[idx.headD 0]?).getD [] ++ idx.drop 1)⟩,
        hits.length :: shp.drop mask.shape.length)

/-- optional arguments of get_data -/
structure Opts where
  acceptNone : Bool := false
  acceptNan : Bool := true
  up : Bool := false
  selection : Option (Arr Bool) := none

/-- the final upcast (model.py:602-607) -/
def finish (o : Opts) (shp : List ℕ) (a : Arr V) : Except Err (Option (Arr V)) :=
  if o.up && a.shape ≠ shp then (upcast shp a).map some else .ok (some a)

/-- the checks and selections that follow the search (model.py:555-609) -/
def postprocess (isNan : V → Bool) (c : Ctx V) (t : Target) (o : Opts) (a : Arr V) : Except Err (Option (Arr V)) :=
  if !o.acceptNan && (indices a.shape).all (fun i => isNan (a.val i)) then .error .valueError
  else match o.selection with
    | none => finish o (tShape c t) a
    | some m =>
      match select (tShape c t) m a with
      | .error e => .error e
      | .ok (b, shp) => finish o shp b

/-- whether the branch for data from other chunks is entered (model.py:486-494) -/
def usesIteration (c : Ctx V) (t : Target) : Option (Source V × Iter V) :=
  if t = .stateTarget ∨ t = .stateTargetTpoint then
    match c.fdata, c.iter with
    | some f, some it => if c.hasTdata then some (f, it) else none
    | _, _ => none
  else none

/-- `Model.get_data` (model.py:287-609) -/
def getData (isNan : V → Bool) (c : Ctx V) (t : Target) (lookup : List Char) (o : Opts) : Except Err (Option (Arr V)) :=
  if t = .other then .error .keyError
  else if t = .stateTurbine ∧ c.dw.isSome then .error .valueError
  else
    match search c t lookup with
    | .error e => .error e
    | .ok none => if o.acceptNone then .ok none else .error .valueError
    | .ok (some a) =>
      match usesIteration c t with
      | none => postprocess isNan c t o a
      | some (f, it) =>
        match fromIteration c it t f a with
        | .error e => .error e
        | .ok b => postprocess isNan c t o b

/-- the names of the turbulence intensity that WakeK distinguishes (wake_model.py:313-317) -/
inductive TiVar
  | ti | ambTi | other
deriving DecidableEq, Repr

/-- WakeK (wake_model.py:206-243) -/
structure WakeK where
  k : Option ℚ
  ka : Option ℚ
  kb : Option ℚ
  tiVar : TiVar
deriving DecidableEq

/-- the constructor's checks (wake_model.py:238-241) -/
def WakeK.new (k ka kb : Option ℚ) (tiVar : TiVar) : Except Err WakeK :=
  if k.isSome ∧ (ka.isSome ∨ kb.isSome) then .error .valueError
  else if k.isNone ∧ kb.isSome ∧ (ka.isNone ∨ ka = some 0) then .error .valueError
  else .ok ⟨k, ka, kb, tiVar⟩

/-- the value that the call stores in the object's attribute (wake_model.py:310-320); `tiGiven`, `ambGiven` are the arguments `ti`, `amb_ti`, and `tiCtx` is what
get_data sees for the variable of turbulence intensity -/
def WakeK.stored (w : WakeK) (isNan : ℚ → Bool) (tiCtx : Ctx ℚ) (t : Target) (o : Opts) (tiGiven ambGiven : Option (Arr ℚ)) : Except Err (Option (Arr ℚ)) :=
  match w.ka, w.kb with
  | none, none => .ok (w.k.map (fun x => ⟨[], fun _ => x⟩))
  | ka, kb =>
    let tiE : Except Err (Option (Arr ℚ)) :=
      if w.tiVar = .ti ∧ tiGiven.isSome then .ok tiGiven
      else if w.tiVar = .ambTi ∧ ambGiven.isSome then .ok ambGiven
      else getData isNan tiCtx t ['w'] { o with selection := none }
    match tiE with
    | .error e => .error e
    | .ok none => .error .valueError
    | .ok (some a) =>
      match ka with
      | none => .error .valueError
      | some x => .ok (some ⟨a.shape, fun i => x * a.val i + kb.getD 0⟩)

/-- `WakeK.__call__` (wake_model.py:274-324); `kCtx` is what get_data sees for the variable of the growth parameter, its `own` field is replaced by the stored
value -/
def WakeK.run (w : WakeK) (isNan : ℚ → Bool) (tiCtx kCtx : Ctx ℚ) (t : Target) (o : Opts) (tiGiven ambGiven : Option (Arr ℚ)) : Except Err (Option (Arr ℚ)) :=
  match w.stored isNan tiCtx t o tiGiven ambGiven with
  | .error e => .error e
  | .ok a => getData isNan { kCtx with own := a } t ['s', 'w'] o

/-- The object's attribute as shared memory of several calls that run at the same time (wake_model.py:310, 320, 322-323): a call writes, reads and clears it. -/
inductive Step
  | write | read | clear
deriving DecidableEq, Repr

/-- runs a schedule: entries are (call, step); `v i` is what call `i` writes; returns what the reads see -/
def runSchedule {A : Type} (v : ℕ → A) : Option A → List (ℕ × Step) → List (ℕ × Option A)
  | _, [] => []
  | _, (i, .write) :: l => runSchedule v (some (v i)) l
  | m, (i, .read) :: l => (i, m) :: runSchedule v m l
  | _, (_, .clear) :: l => runSchedule v none l

end Foxes.GetData
