import Verif.Model.WindIO
import Verif.Model.GetData
import Verif.Model.Factory

/-!
Model of the windIO attributes and outputs: `foxes/input/yaml/windio/read_attributes.py`, `read_outputs.py`, the choice of models in
the constructor of the downwind algorithm (`foxes/algorithms/downwind/downwind.py` 113-183), `ModelBook.default_partial_wakes`
(`foxes/models/model_book.py` 610-641), and `StateTurbineTable.get_dataset` (`foxes/output/state_turbine_table.py`).

Simplifications: rational numbers for floats; printing is not modelled; names and options have the type the schema asks for (strings,
numbers, booleans), a missing entry of a dictionary is `none`; the entries the model book has at the start are the ones named here.
-/

namespace Foxes.WioAttrs
open Foxes.WindIO (Err item put)
open Foxes.GetData (WakeK TiVar)

/-- `wake_expansion_coefficient`: `k_a` may be missing, None or a number; `k_b` and `free_stream_ti` may be missing. -/
structure KCoef where
  ka : Option (Option ℚ)
  kb : Option ℚ := none
  freeTi : Option Bool := none

/-- The entry `wind_deficit_model` or `wake_model`. -/
structure Deficit where
  name : Option String
  effWs : Option Bool := none
  kcoef : Option KCoef
  ceps : Option ℚ := none

/-- The entry `turbulence_model`. -/
structure Turb where
  name : Option String
  kcoef : Option KCoef := none

/-- The entry `rotor_averaging`; None for an averaging is `some none`. -/
structure RotorAvg where
  grid : String
  nx : ℕ
  ny : ℕ
  background : Option String
  wake : Option String

/-- The entry `analysis`; `blockage` and `deflection` contain the optional names. -/
structure Analysis where
  superposition : Option (List (String × String))
  induction : Option String := none
  windDeficit : Option Deficit := none
  wakeModel : Option Deficit := none
  turb : Option Turb := none
  blockage : Option (Option String) := none
  rotor : Option RotorAvg := none
  deflection : Option (Option String) := none

/-- A wake model object: class, induction model, superposition, wake growth, and the optional parameter `sbeta_factor`. -/
structure WObj where
  cls : String
  ind : String
  sup : Option String
  k : Option WakeK
  sbeta : Option ℚ := none
deriving DecidableEq

/-- A wake frame object: class and induction model. -/
structure FObj where
  cls : String
  ind : Option String
deriving DecidableEq

/-- The algorithm dictionary and the entries that are added to the model book. -/
structure St where
  algoType : String := "Downwind"
  wakes : List String := []
  book : List (String × WObj) := []
  rotor : Option (Option String) := none
  pwakes : Option (Option String) := none
  frame : Option String := none
  frames : List (String × FObj) := []

/-- `wind_def_map` (read_attributes.py 17-25). -/
def windDefMap : List (String × String) :=
  [("Jensen", "JensenWake"), ("Bastankhah2014", "Bastankhah2014"), ("Bastankhah2016", "Bastankhah2016"), ("TurbOPark", "TurbOPark")]

/-- `ws_sup_dict` and `ws_sup_amb_dict` (read_attributes.py 27-42). -/
def wsSup (eff : Bool) : List (String × String) :=
  if eff then [("Linear", "ws_linear"), ("Squared", "ws_quadratic"), ("Product", "ws_product")]
  else [("Linear", "ws_linear_amb"), ("Squared", "ws_quadratic_amb"), ("Product", "ws_product")]

/-- `twake_def_map` (read_attributes.py 99-105). -/
def turbMap : List (String × String) := [("CrespoHernandez", "CrespoHernandezTIWake"), ("IEC-TI-2019", "IECTIWake")]

/-- `ti_sup_dict` (read_attributes.py 107-113). -/
def tiSup : List (String × String) := [("Linear", "ti_linear"), ("Squared", "ti_quadratic")]

/-- `indc_def_map` (read_attributes.py 160-168). -/
def blockMap : List (String × String) :=
  [("RankineHalfBody", "RankineHalfBody"), ("Rathmann", "Rathmann"), ("SelfSimilarityDeficit", "SelfSimilar"),
   ("SelfSimilarityDeficit2020", "SelfSimilar2020")]

/-- `defl_def_map` (read_attributes.py 248-254). -/
def deflMap : List (String × String) := [("None", "RotorWD"), ("Batankhah2016", "YawedWakes")]

/-- `imap` (read_attributes.py 292-298). -/
def indMap : List (String × String) := [("1D", "Betz"), ("Madsen", "Madsen")]

/-- The names of the classes derived from `WakeModel` (models/wake_models, core/wake_model.py); `WakeModel.new` looks for these
(utils/subclasses.py 44-64). -/
def wakeClasses : List String :=
  ["TurbineInductionModel", "VortexSheet", "RankineHalfBody", "Rathmann", "SelfSimilar", "SelfSimilar2020",
   "AxisymmetricWakeModel", "GaussianWakeModel", "DistSlicedWakeModel", "TopHatWakeModel", "Bastankhah2014", "TurbOParkWake", "TurbOParkWakeIX",
   "JensenWake", "Bastankhah2016", "IECTIWake", "CrespoHernandezTIWake"]

/-- The kinds of wake models the choice of partial wakes distinguishes (class hierarchy of models/wake_models). -/
inductive Kind where
  | induction
  | topHat
  | axi
  | sliced
  | other
deriving DecidableEq

/-- The first matching class in the order of `default_partial_wakes` (model_book.py 627-636). -/
def kind (w : WObj) : Kind :=
  if w.cls ∈ ["RankineHalfBody", "Rathmann", "SelfSimilar", "SelfSimilar2020", "VortexSheet"] then .induction
  else if w.cls ∈ ["JensenWake", "IECTIWake", "CrespoHernandezTIWake", "TopHatWakeModel"] then .topHat
  else if w.cls ∈ ["Bastankhah2014", "TurbOParkWake", "TurbOParkWakeIX", "GaussianWakeModel", "AxisymmetricWakeModel"] then .axi
  else if w.cls ∈ ["Bastankhah2016", "DistSlicedWakeModel"] then .sliced
  else .other

/-- The values read from a wake expansion coefficient (read_attributes.py 53-56, 127-130). -/
def readK (c : KCoef) : Except Err (Option ℚ × ℚ × Bool) := do
  let ka ← item c.ka
  pure (ka, c.kb.getD 0, c.freeTi.getD false)

/-- The parameters k, ka, kb and ti_var of the constructors (read_attributes.py 57-68, 131-143; the default of `ti_var` is TI,
wake_model.py 208). -/
def kArgs : Option ℚ × ℚ × Bool → Option ℚ × Option ℚ × Option ℚ × TiVar
  | (none, kb, _) => (some kb, none, none, .ti)
  | (some ka, kb, amb) =>
    if ka = 0 then (some kb, none, none, .ti)
    else (none, some ka, some kb, if amb then .ambTi else .ti)

/-- The errors of the wake growth constructor, in the kinds used here. -/
def growth (p : Option ℚ × Option ℚ × Option ℚ × TiVar) : Except Err WakeK :=
  match WakeK.new p.1 p.2.1 p.2.2.1 p.2.2.2 with
  | .ok w => .ok w
  | .error _ => .error .value

/-- `WakeModel.new` for a model with superposition and wake growth (wake_model.py 170-185, subclasses.py 44-64): unknown classes raise
KeyError; `sbeta_factor` is a parameter of Bastankhah2014 (bastankhah14.py 34), TurbOParkWake (turbopark.py 38-46) and CrespoHernandezTIWake, and
otherwise goes to WakeK, which raises TypeError (jensen.py 20, 34, bastankhah16.py 422-429, 454). -/
def newWake (cls ind sup : String) (sbeta : Option ℚ) (p : Option ℚ × Option ℚ × Option ℚ × TiVar) : Except Err WObj :=
  if cls ∉ wakeClasses then .error .key
  else if sbeta.isSome ∧ cls ∉ ["Bastankhah2014", "TurbOParkWake", "CrespoHernandezTIWake"] then .error .type
  else do
    let k ← growth p
    pure ⟨cls, ind, some sup, some k, sbeta⟩

/-- `mbook.wake_models[wname] = ...` and `algo_dict["wake_models"].append(wname)` (read_attributes.py 77-81, 147-151, 178-182). -/
def addWake (n : String) (w : WObj) (s : St) : St := { s with book := put n w s.book, wakes := s.wakes ++ [n] }

/-- `_read_wind_deficit` (read_attributes.py 6-83). -/
def readDeficit (d : Deficit) (sup : List (String × String)) (ind : String) (s : St) : Except Err (St × (Option ℚ × ℚ × Bool)) := do
  let n ← item d.name
  let eff := d.effWs.getD true
  let cls ← item (windDefMap.lookup n)
  let c ← item d.kcoef
  let kk ← readK c
  let sn ← item (sup.lookup "ws_superposition")
  let su ← item ((wsSup eff).lookup sn)
  let w ← newWake cls ind su d.ceps (kArgs kk)
  pure (addWake n w s, kk)

/-- The wake expansion of the turbulence model: its own or the one of the wind deficit (read_attributes.py 126-130). -/
def turbK : Option KCoef → Option ℚ × ℚ × Bool → Except Err (Option ℚ × ℚ × Bool)
  | none, kk => .ok kk
  | some c, _ => readK c

/-- `_read_turbulence` (read_attributes.py 86-155); the opening angle of IECTIWake is None, so that it uses the wake growth
(iec_ti.py 64-65). -/
def readTurb (t : Turb) (sup : List (String × String)) (ind : String) (kk : Option ℚ × ℚ × Bool) (s : St) : Except Err St := do
  let n ← item t.name
  if n = "None" ∨ n = "none" then pure s
  else
    let cls ← item (turbMap.lookup n)
    let k ← turbK t.kcoef kk
    let sn ← item (sup.lookup "ti_superposition")
    let su ← item (tiSup.lookup sn)
    let w ← newWake cls ind su none (kArgs k)
    pure (addWake n w s)

/-- `WakeModel.new` for a blockage model, with default superposition (read_attributes.py 176-177). -/
def newBlock (cls ind : String) : Except Err WObj :=
  if cls ∉ wakeClasses then .error .key else .ok ⟨cls, ind, none, none, none⟩

/-- `_read_blockage` (read_attributes.py 158-184). -/
def readBlockage (name : Option String) (ind : String) (s : St) : Except Err St := do
  let n ← item name
  if n = "None" ∨ n = "none" then pure s
  else
    let cls ← item (blockMap.lookup n)
    let w ← newBlock cls ind
    pure { addWake n w s with algoType := "Iterative" }

/-- `f"grid{n}"` -/
def gridName (n : ℕ) : String := "grid" ++ Nat.repr n

/-- The rotor model (read_attributes.py 212-219). -/
def rotorName (r : RotorAvg) : Option String :=
  match r.background with
  | none => none
  | some b =>
    if b = "center" ∨ b = "centre" then some "centre"
    else if b = "none" ∨ b = "None" then none
    else if b = "grid" then some (gridName (r.nx * r.ny))
    else some b

/-- The partial wakes (read_attributes.py 221-234). -/
def pwName (r : RotorAvg) : Option String :=
  match r.wake with
  | none => none
  | some w =>
    if w = "centre" ∨ w = "center" then some "centre"
    else if w = "none" ∨ w = "None" ∨ w = "auto" then none
    else if w = "grid" then
      if r.background = some "grid" then some "rotor_points"
      else if r.grid = "grid" then some (gridName (r.nx * r.ny))
      else some r.grid
    else some w

/-- `_read_rotor_averaging` (read_attributes.py 187-243); the entries for the wind speed exponents are assumed to be there. -/
def readRotor (r : RotorAvg) (s : St) : Except Err St :=
  if r.nx ≠ r.ny then .error .notImplemented
  else .ok { s with rotor := some (rotorName r), pwakes := some (pwName r) }

/-- `WakeFrame.new` with the induction model, and without in case of TypeError (read_attributes.py 263-266): RotorWD passes it to
`WakeFrame.__init__`, which has no such parameter. -/
def newFrame (cls ind : String) : FObj := if cls = "YawedWakes" then ⟨cls, some ind⟩ else ⟨cls, none⟩

/-- `_read_deflection` (read_attributes.py 246-273). -/
def readDeflection (name : Option String) (ind : String) (s : St) : Except Err St := do
  let n ← item name
  let cls ← item (deflMap.lookup n)
  pure { s with frames := put n (newFrame cls ind) s.frames, frame := some n }

/-- An optional part of the analysis (read_attributes.py 319, 336, 343, 350): read if the entry is there. -/
def optPart {α : Type} (f : α → St → Except Err St) : Option α → St → Except Err St
  | none, s => .ok s
  | some a, s => f a s

/-- `_read_analysis` (read_attributes.py 276-356). -/
def readAnalysis (a : Analysis) (s : St) : Except Err St := do
  let sup ← item a.superposition
  let ind ← item (indMap.lookup (a.induction.getD "1D"))
  let d ← item (a.windDeficit.orElse fun _ => a.wakeModel)
  let (s1, kk) ← readDeficit d sup ind s
  let s2 ← optPart (fun t s => readTurb t sup ind kk s) a.turb s1
  let s3 ← optPart (fun n s => readBlockage n ind s) a.blockage s2
  let s4 ← optPart readRotor a.rotor s3
  optPart (fun n s => readDeflection n ind s) a.deflection s4

/-- Rotor models: the centre point, a grid of `n` times `n` points, or another entry of the model book. -/
inductive RObj where
  | centre
  | grid (n : ℕ)
  | other (name : String)
deriving DecidableEq

/-- Partial wakes models. -/
inductive PObj where
  | rotorPoints
  | topHat
  | centre
  | axiwake (n : ℕ)
  | grid (n : ℕ)
deriving DecidableEq

/-- The rest of a string after a prefix. -/
def afterPrefix : List Char → List Char → Option (List Char)
  | [], s => some s
  | _ :: _, [] => none
  | p :: ps, c :: s => if p = c then afterPrefix ps s else none

/-- Names like `grid9`: the number after the prefix, if it is a string of digits (factory.py 255-310). -/
def numberAfter (pre name : String) : Option ℕ :=
  match afterPrefix pre.toList name.toList with
  | some (c :: s) => if (c :: s).all Char.isDigit then some (Factory.digitsVal (c :: s)) else none
  | _ => none

/-- `_n2n` (model_book.py 91-98): the square root of a square number, otherwise an exception. -/
def squareRoot (n2 : ℕ) : Except Err ℕ := if Nat.sqrt n2 * Nat.sqrt n2 = n2 then .ok (Nat.sqrt n2) else .error .value

/-- `mbook.rotor_models.get_item(name)` (downwind.py 119, model_book.py 88-130): None is not found (the search by templates raises TypeError,
factory.py 282); names other than `centre` and `grid<n2>` are left open. -/
def rotorBook : Option String → Except Err RObj
  | none => .error .type
  | some n =>
    if n = "centre" then .ok .centre
    else match numberAfter "grid" n with
      | some n2 => match squareRoot n2 with
        | .ok m => .ok (.grid m)
        | .error e => .error e
      | none => .ok (.other n)

/-- `mbook.partial_wakes.get_item(name)` (model_book.py 213-232). -/
def pwBook (n : String) : Except Err PObj :=
  if n = "rotor_points" then .ok .rotorPoints
  else if n = "top_hat" then .ok .topHat
  else if n = "centre" then .ok .centre
  else match numberAfter "axiwake" n with
    | some m => .ok (.axiwake m)
    | none => match numberAfter "grid" n with
      | some n2 => match squareRoot n2 with
        | .ok m => .ok (.grid m)
        | .error e => .error e
      | none => .error .key

/-- `check_wmodel` (partial_wakes_model.py 26-43, axiwake.py 37-60, top_hat.py 28-51). -/
def compatible : PObj → Kind → Bool
  | .topHat, k => k = .topHat
  | .axiwake _, k => k = .topHat ∨ k = .axi
  | _, _ => true

/-- `ModelBook.default_partial_wakes` (model_book.py 610-641). -/
def defaultPw : Kind → Except Err String
  | .induction => .ok "grid9"
  | .topHat => .ok "top_hat"
  | .axi => .ok "axiwake6"
  | .sliced => .ok "grid9"
  | .other => .error .type

/-- The partial wakes parameter of the algorithm: None, a string, a list or a dictionary. -/
inductive PVals where
  | none
  | str (s : String)
  | list (l : List String)
  | dict (d : List (String × String))

/-- A list of one name is the same as the name (downwind.py 133-134), None is the empty dictionary (downwind.py 131-132). -/
def PVals.normal : PVals → PVals
  | .none => .dict []
  | .list [s] => .str s
  | v => v

/-- The partial wakes of one wake model from a name for all (downwind.py 136-147). -/
def pwFromStr (v : String) (w : WObj) : Except Err PObj := do
  let p ← pwBook v
  if compatible p (kind w) then pure p
  else
    let dn ← defaultPw (kind w)
    pwBook dn

/-- The partial wakes of one wake model from the list (downwind.py 149-156). -/
def pwFromList (l : List String) (i : ℕ) : Except Err PObj :=
  match l[i]? with
  | Option.none => .error .value
  | some n => pwBook n

/-- The partial wakes of one wake model from the dictionary (downwind.py 158-164). -/
def pwFromDict (d : List (String × String)) (name : String) (w : WObj) : Except Err PObj :=
  match d.lookup name with
  | some n => pwBook n
  | Option.none => do
    let dn ← defaultPw (kind w)
    pwBook dn

/-- The partial wakes of the `i`-th wake model. -/
def pwOne (v : PVals) (i : ℕ) (nw : String × WObj) : Except Err PObj :=
  match v with
  | .str s => pwFromStr s nw.2
  | .list l => pwFromList l i
  | .dict d => pwFromDict d nw.1 nw.2
  | .none => pwFromDict [] nw.1 nw.2

/-- The loops of `_set_wspecific` (downwind.py 136-166), starting at wake model `i`. -/
def pwLoop (v : PVals) (i : ℕ) : List (String × WObj) → Except Err (List (String × PObj))
  | [] => .ok []
  | nw :: l => do
    let p ← pwOne v i nw
    let r ← pwLoop v (i + 1) l
    pure ((nw.1, p) :: r)

/-- `_set_wspecific` for partial wakes (downwind.py 130-175), for wake models of different names. -/
def setPw (v : PVals) (ws : List (String × WObj)) : Except Err (List (String × PObj)) := pwLoop v.normal 0 ws

/-- The algorithm: iterative or not, rotor model, wake frame, wake models with names, partial wakes with names of wake models. -/
structure Alg where
  iterative : Bool
  rotor : RObj
  frame : FObj
  wakes : List (String × WObj)
  pw : List (String × PObj)

/-- One wake model from the model book (downwind.py 126-129). -/
def wakeOf (book : List (String × WObj)) (n : String) : Except Err (String × WObj) := do
  let w ← item (book.lookup n)
  pure (n, w)

/-- The wake frame from the model book, default `rotor_wd` (downwind.py 69, 122). -/
def frameOf (s : St) : Except Err FObj :=
  match s.frame with
  | none => .ok ⟨"RotorWD", none⟩
  | some n => item (s.frames.lookup n)

/-- The string or None in the algorithm dictionary as parameter. -/
def pwParam : Option (Option String) → PVals
  | some (some n) => .str n
  | _ => .none

/-- The choice of models in the constructor of the algorithm (windio.py 62-64, downwind.py 113-183, iterative.py 70). -/
def mkAlg (s : St) : Except Err Alg := do
  let r ← rotorBook (s.rotor.getD (some "centre"))
  let f ← frameOf s
  let ws ← s.wakes.mapM (wakeOf s.book)
  let pw ← setPw (pwParam s.pwakes) ws
  pure ⟨s.algoType = "Iterative", r, f, ws, pw⟩

/-- The attributes of a windIO file give an algorithm (read_attributes.py 366-401, windio.py 45-64). -/
def readAttributes (a : Analysis) : Except Err Alg := do
  let s ← readAnalysis a {}
  mkAlg s

/-! ### Outputs -/

/-- The entry `cases_run`: `all_occurences` and `subset` may be missing. -/
structure Cases where
  all : Option Bool := none
  subset : Option (List ℕ) := none

/-- The selection of states (read_outputs.py 184-190): the entry `all_occurences` has no default. -/
def readCases (c : Option Cases) : Except Err (Option (List ℕ)) := do
  let all ← item (c.getD {}).all
  if all then pure none
  else
    let sub ← item (c.getD {}).subset
    pure (some sub)

/-- The entry `turbine_outputs`. -/
structure TurbOut where
  report : Option Bool := none
  file : Option String := none
  vars : Option (List String)

/-- `vmap` of the turbine outputs (read_outputs.py 29-32). -/
def turbVars : List (String × String) := [("power", "P"), ("rotor_effective_velocity", "REWS")]

/-- The request for the table: variables, file, selected states, names of variables (read_outputs.py 46-65). -/
structure TableReq where
  vars : List String
  nameMap : List (String × String)
  file : String
  isel : Option (List ℕ)

/-- `isel` is set only if the subset is not empty (read_outputs.py 41-43). -/
def tableSel : Option (List ℕ) → Option (List ℕ)
  | some (i :: l) => some (i :: l)
  | _ => none

/-- `_read_turbine_outputs` (read_outputs.py 11-65); `none` if no table is requested. -/
def readTurbineOutputs (t : Option TurbOut) (sel : Option (List ℕ)) : Except Err (Option TableReq) :=
  match t with
  | none => .ok none
  | some t =>
    if t.report.getD true then do
      let vs ← item t.vars
      let fv ← vs.mapM (fun v => item (turbVars.lookup v))
      pure (some ⟨fv, turbVars.map (fun p => (p.2, p.1)) ++ [("state", "time"), ("turbine", "turbine")], t.file.getD "turbine_outputs.nc", tableSel sel⟩)
    else .ok none

/-- Farm results: state coordinate and for each variable the values by state number and turbine number. -/
structure FarmRes where
  states : List ℚ
  nTurbines : ℕ
  data : List (String × (ℕ → ℕ → ℚ))

/-- The table: state labels, and for each output name the values by row and turbine. -/
structure Table where
  stateName : String
  states : List ℚ
  data : List (String × (ℕ → ℕ → ℚ))

/-- `ds.isel(time=...)`: IndexError (as `value`) beyond the end. -/
def selStates (states : List ℚ) (sel : List ℕ) : Except Err (List ℚ) :=
  sel.mapM (fun i => match states[i]? with | some x => .ok x | none => .error .value)

/-- One column of the table before the selection (state_turbine_table.py 77-80). -/
def column (r : FarmRes) (nameMap : List (String × String)) (v : String) : Except Err (String × (ℕ → ℕ → ℚ)) := do
  let f ← item (r.data.lookup v)
  pure ((nameMap.lookup v).getD v, f)

/-- `get_dataset` with `isel` (state_turbine_table.py 37-92); columns with the same name are replaced. -/
def getTable (r : FarmRes) (q : TableReq) : Except Err Table := do
  let sn := (q.nameMap.lookup "state").getD "state"
  let cols ← q.vars.mapM (column r q.nameMap)
  let data := cols.foldl (fun d c => put c.1 c.2 d) []
  match q.isel with
  | none => pure ⟨sn, r.states, data⟩
  | some sel => do
    let st ← selStates r.states sel
    pure ⟨sn, st, data.map (fun p => (p.1, fun i t => p.2 (sel.getD i 0) t))⟩

/-- The heights of the planes (`z_sampling`, read_outputs.py 91-111): list, hub heights, grid, a number, or something else. -/
inductive ZSampling where
  | planeList (z : Option (List ℚ))
  | hubHeights
  | grid (bounds : Option (List ℚ)) (n : Option ℕ)
  | number (z : ℚ)
  | other

/-- `np.linspace(a, b, n)` -/
def linspace (a b : ℚ) (n : ℕ) : List ℚ :=
  if n = 1 then [a] else (List.range n).map (fun i : ℕ => a + (b - a) * i / ((n : ℚ) - 1))

/-- Insertion into a sorted list without repetition. -/
def insertU (x : ℚ) : List ℚ → List ℚ
  | [] => [x]
  | y :: l => if x < y then x :: y :: l else if x = y then y :: l else y :: insertU x l

/-- `np.unique` -/
def unique (l : List ℚ) : List ℚ := l.foldl (fun acc x => insertU x acc) []

/-- Two bounds, or an assertion (as `value`) (read_outputs.py 98, 114, 116). -/
def twoBounds : List ℚ → Except Err (ℚ × ℚ)
  | [a, b] => .ok (a, b)
  | _ => .error .value

/-- `z_list` (read_outputs.py 91-111). -/
def zList (hubs : List ℚ) : ZSampling → Except Err (List ℚ)
  | .planeList z => item z
  | .hubHeights => .ok (unique hubs)
  | .grid b n => do
    let b ← item b
    let b ← twoBounds b
    let n ← item n
    pure (linspace b.1 b.2 n)
  | .number z => .ok [z]
  | .other => .error .notImplemented

/-- `nx` (read_outputs.py 119-121): `int` cuts towards zero; for negative values the maximum is one. -/
def gridCount (lo hi d : ℚ) : ℕ :=
  let n := max (⌊(hi - lo) / d⌋.toNat) 1 + 1
  if (hi - lo) / ((n : ℚ) - 1) > d then n + 1 else n

/-- The entry `flow_field`: bounds and steps of the planes are there. -/
structure FlowOut where
  report : Option Bool := none
  file : Option String := none
  vars : Option (List String)
  z : ZSampling
  xyGrid : Bool
  xb : List ℚ
  yb : List ℚ
  dx : ℚ
  dy : ℚ

/-- `vmap` of the flow field (read_outputs.py 86-89). -/
def flowVars : List (String × String) := [("wind_speed", "WS"), ("wind_direction", "WD")]

/-- The request for planes (read_outputs.py 132-158). -/
structure PlaneReq where
  z : List ℚ
  isel : Option (List ℕ)
  x : ℚ × ℚ
  y : ℚ × ℚ
  nx : ℕ
  ny : ℕ
  vars : List String
  file : String

/-- `_read_flow_field` (read_outputs.py 68-162); steps of size zero raise ZeroDivisionError (as `value`). -/
def readFlowField (f : Option FlowOut) (hubs : List ℚ) (sel : Option (List ℕ)) : Except Err (Option PlaneReq) :=
  match f with
  | none => .ok none
  | some f =>
    if f.report.getD true then do
      let vs ← item f.vars
      let z ← zList hubs f.z
      if f.xyGrid then do
        let xb ← twoBounds f.xb
        let yb ← twoBounds f.yb
        if f.dx = 0 ∨ f.dy = 0 then .error .value
        else do
          let fv ← vs.mapM (fun v => item (flowVars.lookup v))
          pure (some ⟨z, sel, xb, yb, gridCount xb.1 xb.2 f.dx, gridCount yb.1 yb.2 f.dy, fv, f.file.getD "flow_field.nc"⟩)
      else .error .notImplemented
    else .ok none

/-- `read_outputs` (read_outputs.py 165-205). -/
def readOutputs (c : Option Cases) (t : Option TurbOut) (f : Option FlowOut) (hubs : List ℚ) : Except Err (Option TableReq × Option PlaneReq) := do
  let sel ← readCases c
  let a ← readTurbineOutputs t sel
  let b ← readFlowField f hubs sel
  pure (a, b)

end Foxes.WioAttrs
