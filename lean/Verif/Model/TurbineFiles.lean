import Verif.Model.Factory
/-
Model of the way from file names to turbine data: `parse_Pct_file_name` and `parse_Pct_two_files` (foxes/data/parse.py), the constructors of the
turbine types that read power and thrust curves (foxes/models/turbine_types), directories (foxes/config/config.py), the data book
(foxes/utils/data_book.py) and the search for input files (foxes/models/turbine_types, foxes/input/farm_layout/from_file.py, foxes/input/states).
Strings are lists of characters. Numbers are exact, `float` is any function from texts to numbers (in some theorems: decimal numbers).
Paths are posix paths of pathlib before Python 3.14. Files are given by the set of paths `fs` at which there is one.
-/
namespace Foxes.TurbineFiles
open Foxes.Factory (Str pySplit)

/-- The exceptions that occur. `unbound` is UnboundLocalError, `missing` FileNotFoundError. -/
inductive Err
  | valueError | indexError | unbound | typeError | keyError | attributeError | missing | assertion
deriving DecidableEq, Repr

/-! ### Paths -/

/-- `pathlib.PurePosixPath`: the number of slashes of the root (0 for relative paths), and the components -/
structure Path where
  root : ℕ
  parts : List Str
deriving DecidableEq

/-- the root of a text: two slashes are kept, three or more count as one (pathlib) -/
def rootOf : Str → ℕ
  | '/' :: '/' :: '/' :: _ => 1
  | '/' :: '/' :: _ => 2
  | '/' :: _ => 1
  | _ => 0

/-- `Path(s)`: empty components and single dots are dropped (pathlib) -/
def toPath (s : Str) : Path := ⟨rootOf s, (pySplit '/' s).filter (fun p => p ≠ [] ∧ p ≠ ['.'])⟩

/-- `"/".join(l)` -/
def join (c : Char) : List Str → Str
  | [] => []
  | [a] => a
  | a :: b :: l => a ++ c :: join c (b :: l)

/-- `str(path)` (pathlib) -/
def Path.text (p : Path) : Str := if p.root = 0 ∧ p.parts = [] then ['.'] else List.replicate p.root '/' ++ join '/' p.parts

/-- `a / b` (pathlib): an absolute path on the right wins -/
def Path.div (a b : Path) : Path := if b.root ≠ 0 then b else ⟨a.root, a.parts ++ b.parts⟩

/-- `path.name` (pathlib) -/
def Path.name (p : Path) : Str := p.parts.getLastD []

/-- `s.rfind(c)` -/
def rfind (c : Char) : Str → Option ℕ
  | [] => none
  | d :: s => match rfind c s with
    | some i => some (i + 1)
    | none => if d = c then some 0 else none

/-- `path.stem` (pathlib): without the part from the last dot on, unless that dot is the first or last character -/
def stem (s : Str) : Str :=
  match rfind '.' s with
  | some i => if 0 < i ∧ i < s.length - 1 then s.take i else s
  | none => s

/-- `path.suffix` (pathlib) -/
def suffix (s : Str) : Str :=
  match rfind '.' s with
  | some i => if 0 < i ∧ i < s.length - 1 then s.drop i else []
  | none => []

/-- A path argument: a text or a path object; `none` entries of the configuration are not paths. -/
inductive Arg
  | str (s : Str)
  | path (p : Path)
deriving DecidableEq

/-- `pth if isinstance(pth, Path) else Path(pth)` -/
def Arg.toP : Arg → Path
  | .str s => toPath s
  | .path p => p

/-- `str(arg)` -/
def Arg.text : Arg → Str
  | .str s => s
  | .path p => p.text

/-- `get_path` (config.py 139-163) -/
def getPath (a : Arg) (base : Path) : Path := if a.toP.root ≠ 0 then a.toP else base.div a.toP

/-- The directories of the configuration (config.py 18-27); `none` is `None`. -/
structure Config where
  work : Option Arg
  inp : Option Arg
  out : Option Arg

/-- the configuration of a new process (config.py 16-27) -/
def Config.init : Config := ⟨some (.path ⟨0, []⟩), none, none⟩

/-- `config.work_dir` (config.py 60-76): the value, and the configuration with the path object stored -/
def workDir (c : Config) : Path × Config :=
  match c.work with
  | none => (⟨0, []⟩, { c with work := some (.path ⟨0, []⟩) })
  | some (.str s) => (toPath s, { c with work := some (.path (toPath s)) })
  | some (.path p) => (p, c)

/-- `config.input_dir` (config.py 78-95) -/
def inputDir (c : Config) : Path × Config :=
  match c.inp with
  | none => workDir c
  | some (.str s) => (toPath s, { c with inp := some (.path (toPath s)) })
  | some (.path p) => (p, c)

/-- `config.output_dir` (config.py 97-114) -/
def outputDir (c : Config) : Path × Config :=
  match c.out with
  | none => workDir c
  | some (.str s) => (toPath s, { c with out := some (.path (toPath s)) })
  | some (.path p) => (p, c)

/-- `get_input_path` (config.py 166-185) -/
def inputPath (c : Config) (a : Arg) : Path × Config := (getPath a (inputDir c).1, (inputDir c).2)

/-- `get_output_path` (config.py 188-207) -/
def outputPath (c : Config) (a : Arg) : Path × Config := (getPath a (outputDir c).1, (outputDir c).2)

/-! ### File names -/

/-- the data read from a file name: the entries `name`, `P_nominal`, `D`, `H` of the dictionary -/
structure Pars where
  name : Str
  P : Option ℚ := none
  D : Option ℚ := none
  H : Option ℚ := none
deriving DecidableEq

/-- `s.replace("d", ".")` -/
def dots (s : Str) : Str := s.map (fun c => if c = 'd' then '.' else c)

/-- one round of the loop over the pieces (parse.py 45-65) -/
def piece (float : Str → Except Err ℚ) (r : Pars) (p : Str) : Except Err Pars :=
  match p.getLast? with
  | none => .error .indexError
  | some l =>
    if l = 'W' then
      match p.dropLast.getLast? with
      | none => .error .indexError
      | some u =>
        let v := if u = 'k' then float (dots p.dropLast.dropLast)
          else if u = 'M' then (float (dots p.dropLast.dropLast)).map (1000 * ·)
          else if u = 'G' then (float (dots p.dropLast.dropLast)).map (1000000 * ·)
          else (float (dots p.dropLast)).map ((1 / 1000) * ·)
        v.map (fun x => { r with P := some x, name := r.name ++ '-' :: p })
    else if p.head? = some 'D' then (float (dots p.tail)).map (fun x => { r with D := some x })
    else if p.head? = some 'H' then (float (dots p.tail)).map (fun x => { r with H := some x })
    else .ok { r with name := r.name ++ '-' :: p }

/-- the part of a text from the first dot on (parse.py 28-30), empty if there is none -/
def fromDot (s : Str) : Str := s.dropWhile (· ≠ '.')

/-- `parse_Pct_file_name` for the stem of the file name (parse.py 25-67). The warnings are not modelled. -/
def parseStem (float : Str → Except Err ℚ) (s : Str) : Except Err Pars :=
  if '-' ∈ fromDot s then .ok { name := s.takeWhile (· ≠ '.') }
  else if '-' ∈ s ∧ '_' ∈ s then .ok { name := s.takeWhile (· ≠ '.') }
  else if '-' ∈ s then (pySplit '-' s).tail.foldlM (piece float) { name := (pySplit '-' s).headD [] }
  else if '_' ∈ s then (pySplit '_' s).tail.foldlM (piece float) { name := (pySplit '_' s).headD [] }
  else .error .unbound

/-- `parse_Pct_file_name` (parse.py 5-67) -/
def parseFile (float : Str → Except Err ℚ) (a : Arg) : Except Err Pars := parseStem float (stem a.toP.name)

/-- `float` for decimal numbers such as `7` and `7.5` (see `pyFloat`) -/
def decimal (s : Str) : Except Err ℚ := match Foxes.Factory.pyFloat s with
  | .ok v => .ok v
  | .error _ => .error .valueError

/-- the loop that counts equal characters at the start (parse.py 94-96) -/
def common : Str → Str → ℕ
  | a :: s, b :: t => if a = b then common s t + 1 else 0
  | _, _ => 0

/-- `parse_Pct_two_files` (parse.py 70-111); `Pars` are equal if and only if the dictionaries are -/
def parseTwo (float : Str → Except Err ℚ) (a b : Arg) : Except Err Pars :=
  match parseFile float a, parseFile float b with
  | .error e, _ => .error e
  | .ok _, .error e => .error e
  | .ok pa, .ok pb =>
    let i := common pa.name pb.name
    let j := if 0 < i ∧ pa.name[i - 1]? = some '-' then i - 1 else i
    if j < 1 then .error .valueError
    else if { pa with name := pa.name.take j } ≠ { pb with name := pa.name.take j } then .error .valueError
    else .ok { pa with name := pa.name.take j }

/-! ### Turbine types -/

/-- the keyword arguments a user adds: `none` if not given; `others` are the names of all other arguments -/
structure User where
  name : Option (Option Str) := none
  P : Option (Option ℚ) := none
  D : Option (Option ℚ) := none
  H : Option (Option ℚ) := none
  unit : Option Str := none
  others : List Str := []
deriving DecidableEq

/-- the attributes of a turbine type (turbine_type.py 51-57) -/
structure Turbine where
  name : Str
  P : Option ℚ
  D : Option ℚ
  H : Option ℚ
  unit : Str
deriving DecidableEq

/-- `FC.P_UNITS` (constants.py 180) -/
def units : List Str := ["W".toList, "kW".toList, "MW".toList, "GW".toList, "TW".toList]

/-- `TurbineType.__init__` (turbine_type.py 33-62) with keyword arguments; `cls` is the name of the class -/
def turbineType (cls : Str) (u : User) : Except Err Turbine :=
  if u.others ≠ [] then .error .typeError
  else
    let t : Turbine := ⟨((u.name.getD none).getD cls), u.P.getD none, u.D.getD none, u.H.getD none, u.unit.getD "kW".toList⟩
    if t.unit ∈ units then .ok t else .error .keyError

/-- the dictionary of a file name as keyword arguments -/
def Pars.toUser (p : Pars) : User := { name := some (some p.name), P := p.P.map some, D := p.D.map some, H := p.H.map some }

/-- `pars.update(parameters)` -/
def User.update (p u : User) : User :=
  ⟨u.name.or p.name, u.P.or p.P, u.D.or p.D, u.H.or p.H, u.unit.or p.unit, p.others ++ u.others⟩

/-- A data source: a table, or something that is taken as the name of a file. -/
inductive Source
  | frame
  | file (a : Arg)

/-- `Path(source)` of a table raises (pathlib) -/
def Source.arg : Source → Except Err Arg
  | .frame => .error .typeError
  | .file a => .ok a

/-- constructors of `PCtFile` and `TurbineTypeLookup` as far as names, sizes and powers are concerned (PCt_file.py 86-92, lookup.py 81-87) -/
def oneSource (float : Str → Except Err ℚ) (cls : Str) (s : Source) (u : User) : Except Err Turbine :=
  match s with
  | .frame => turbineType cls u
  | .file a => do turbineType cls ((← parseFile float a).toUser.update u)

/-- constructors of `PCtFromTwo`, `WsRho2PCtFromTwo` and `WsTI2PCtFromTwo` (PCt_from_two.py 98-104, wsrho2PCt_from_two.py 91-97,
wsti2PCt_from_two.py 98-104): as soon as one source is not a table, the parameters are taken from the names of both -/
def twoSources (float : Str → Except Err ℚ) (cls : Str) (s t : Source) (u : User) : Except Err Turbine :=
  match s, t with
  | .frame, .frame => turbineType cls u
  | _, _ => do
    -- Python evaluates the names of both files in turn; a table raises TypeError
    match s, t with
    | .file a, .file b => turbineType cls (← parseTwo float a b).toUser
    | .file a, .frame => match parseFile float a with
      | .error e => .error e
      | .ok _ => .error .typeError
    | .frame, _ => .error .typeError

/-- the parameters of `CpCtFile` and `CpCtFromTwo` up to the call of the base class (CpCt_file.py 49-62, CpCt_from_two.py 55-73): the
diameter must be there; the unit is taken out and handed over separately -/
def withDiameter (cls : Str) (u : User) : Except Err Turbine :=
  match u.D with
  | none => .error .keyError
  | some none => .error .typeError
  | some (some _) => turbineType cls { u with unit := some (u.unit.getD "kW".toList) }

/-- constructor of `CpCtFile` (CpCt_file.py 49-76), given that the file can be read -/
def cpctFile (float : Str → Except Err ℚ) (cls : Str) (s : Source) (u : User) : Except Err Turbine :=
  match s with
  | .frame => withDiameter cls u
  | .file a => do withDiameter cls ((← parseFile float a).toUser.update u)

/-- constructor of `CpCtFromTwo` (CpCt_from_two.py 55-94), given that the files can be read -/
def cpctTwo (float : Str → Except Err ℚ) (cls : Str) (s t : Source) (u : User) : Except Err Turbine :=
  match s, t with
  | .frame, .frame => withDiameter cls u
  | .file a, .file b => do withDiameter cls (← parseTwo float a b).toUser
  | .file a, .frame => match parseFile float a with
    | .error e => .error e
    | .ok _ => .error .typeError
  | .frame, .file _ => .error .typeError

/-- constructor of `TBLFile` (TBL_file.py 60-79): `meta` are the numbers of the second line; the user's values for the arguments that are
set here repeat keywords -/
def tblFile (fpath : Path) (line : List ℚ) (u : User) : Except Err Turbine :=
  if suffix fpath.name ≠ ".tbl".toList then .error .assertion
  else
    match line[0]?, line[1]?, line[3]? with
    | some h, some d, some p =>
      if u.P ≠ none ∨ u.D ≠ none ∨ u.H ≠ none ∨ u.unit ≠ none then .error .typeError
      else turbineType "TBLFile".toList { u with H := some (some h), D := some (some d), P := some (some (p * 1000)), unit := some "kW".toList }
    | _, _, _ => .error .indexError

/-! ### The data book -/

/-- `d[k] = v` -/
def put {α : Type} (k : Str) (v : α) : List (Str × α) → List (Str × α)
  | [] => [(k, v)]
  | (k', v') :: l => if k' = k then (k', v) :: l else (k', v') :: put k v l

/-- `dbase`: contexts, file names, paths -/
abbrev Book := List (Str × List (Str × Path))

/-- `if context not in self.dbase: self.dbase[context] = {}` (data_book.py 56-57, 97-98, 121-122) -/
def Book.open (b : Book) (c : Str) : Book := if (b.lookup c).isSome then b else put c [] b

/-- `self.dbase[context][name] = path` -/
def Book.set (b : Book) (c n : Str) (p : Path) : Book := put c (put n p ((b.lookup c).getD [])) b

/-- `len(f) > len(s) and f[-len(s) :] == s` (data_book.py 69-71); `f[-0:]` is all of `f` -/
def endsWith (f s : Str) : Bool :=
  decide (s.length < f.length) && ((if s.length = 0 then f else f.drop (f.length - s.length)) == s)

/-- `add_data_package` (data_book.py 42-81): `files` are the files of the package with their paths, in the order of the directory -/
def addPackage (b : Book) (c : Str) (files : List (Str × Path)) (sfx : List Str) : Book :=
  (files.filter (fun f => sfx.any (endsWith f.1))).foldl (fun b f => b.set c f.1 f.2) (b.open c)

/-- the loop of `add_files` (data_book.py 124-130) -/
def addLoop (fs : Path → Bool) (c : Str) : List Arg → Book → Except Err Unit × Book
  | [], b => (.ok (), b)
  | a :: l, b => if fs a.toP then addLoop fs c l (b.set c a.toP.name a.toP) else (.error .missing, b)

/-- `add_files` (data_book.py 108-130): the outcome, and the book afterwards -/
def addFiles (fs : Path → Bool) (b : Book) (c : Str) (l : List Arg) : Except Err Unit × Book := addLoop fs c l (b.open c)

/-- `add_file` (data_book.py 132-144) -/
def addFile (fs : Path → Bool) (b : Book) (c : Str) (a : Arg) : Except Err Unit × Book := addFiles fs b c [a]

/-- `add_data_package_file` (data_book.py 83-106): `found` is the path in the package -/
def addPackageFile (b : Book) (c n : Str) (found : Option Path) : Except Err Unit × Book :=
  match found with
  | none => (.error .missing, b.open c)
  | some p => (.ok (), (b.open c).set c n p)

/-- `get_file_path` (data_book.py 146-193); the result `none` is `None` -/
def getFile (fs : Path → Bool) (b : Book) (c : Str) (a : Arg) (raw errors : Bool) : Except Err (Option Path) :=
  if raw = true ∧ fs a.toP = true then .ok (some a.toP)
  else match b.lookup c with
    | none => if errors then .error .keyError else .ok none
    | some d => match d.lookup a.text with
      | none => if errors then .error .keyError else .ok none
      | some p => .ok (some p)

/-- the constructor (data_book.py 26-40): `data_book.items()` does not exist for data books -/
def newBook (start : Option Book) : Except Err Book :=
  match start with
  | none => .ok []
  | some _ => .error .attributeError

/-- lexicographic order of texts by characters -/
def leStr : Str → Str → Bool
  | [], _ => true
  | _ :: _, [] => false
  | a :: s, b :: t => if a = b then leStr s t else decide (a < b)

/-- `toc` (data_book.py 195-210) -/
def toc (b : Book) (c : Str) : Except Err (List Str) :=
  match b.lookup c with
  | none => .error .keyError
  | some d => .ok ((d.map Prod.fst).mergeSort leStr)

/-- `StaticData.__init__` (static_data.py 32-37): the files of the three packages -/
def staticData (farms states curves : List (Str × Path)) : Book :=
  addPackage (addPackage (addPackage [] "farm".toList farms [".csv".toList]) "states".toList states
    [".csv".toList, ".csv.gz".toList, ".nc".toList, ".tab".toList]) "power_ct_curve".toList curves [".csv".toList]

/-- one operation on a data book -/
inductive BookOp
  | files (c : Str) (l : List Arg)
  | file (c : Str) (a : Arg)
  | package (c : Str) (files : List (Str × Path)) (sfx : List Str)
  | packageFile (c n : Str) (found : Option Path)

/-- the book after an operation, whether it failed or not -/
def bookStep (fs : Path → Bool) (b : Book) : BookOp → Book
  | .files c l => (addFiles fs b c l).2
  | .file c a => (addFile fs b c a).2
  | .package c files sfx => addPackage b c files sfx
  | .packageFile c n found => (addPackageFile b c n found).2

/-! ### The search for input files -/

/-- which file a power or thrust curve is read from (PCt_file.py 177-183, PCt_from_two.py 198-202 and 213-217, wsrho2PCt_from_two.py 186-190 and
205-209, wsti2PCt_from_two.py 198-202 and 217-221), and a wind resource grid (wrg_states.py 95-101): the input directory first, then the data
book with the text of the argument -/
def findByText (fs : Path → Bool) (c : Config) (b : Book) (ctx : Str) (a : Arg) : Except Err (Option Path) :=
  if fs (inputPath c a).1 then .ok (some (inputPath c a).1) else getFile fs b ctx a false true

/-- which file states are read from (states_table.py 216-224, field_data_nc.py 372-377): as above, but with the last component of the path -/
def findByName (fs : Path → Bool) (c : Config) (b : Book) (ctx : Str) (a : Arg) : Except Err (Option Path) :=
  if fs (inputPath c a).1 then .ok (some (inputPath c a).1) else getFile fs b ctx (.str (inputPath c a).1.name) false true

/-- the formats of wind farm layouts -/
inductive Layout
  | json (p : Path)
  | csv (p : Path)
deriving DecidableEq

/-- `len(file_path) > n and file_path[-n:] == s` (from_file.py 46-48); a path object has no length -/
def longEnds (s : Str) : Arg → Except Err Bool
  | .path _ => .error .typeError
  | .str f => .ok (endsWith f s)

/-- `add_from_file` (from_file.py 34-54), down to the file that is opened (from_csv.py 79, from_json.py 31): `get_input_path` is applied again -/
def layoutFile (fs : Path → Bool) (c : Config) (b : Book) (a : Arg) : Except Err Layout := do
  let fpath := (inputPath c a).1
  let c := (inputPath c a).2
  let file ← if fs fpath then pure a
    else match ← getFile fs b "farm".toList (.str fpath.name) false true with
      | some p => pure (Arg.path p)
      | none => .error .keyError
  if suffix fpath.name = ".json".toList then pure (.json (inputPath c file).1)
  else if suffix fpath.name = ".csv".toList then pure (.csv (inputPath c file).1)
  else if ← longEnds ".csv.gz".toList file then pure (.csv (inputPath c file).1)
  else if ← longEnds ".csv.bz2".toList file then pure (.csv (inputPath c file).1)
  else if ← longEnds ".csv.zip".toList file then pure (.csv (inputPath c file).1)
  else .error .keyError

end Foxes.TurbineFiles
