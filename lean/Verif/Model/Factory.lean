import Mathlib.Data.List.Basic
import Mathlib.Data.Rat.Init
import Mathlib.Algebra.Order.Ring.Rat
/-
Model of the names of parametrised models (foxes/utils/factory.py): the template language, parsing of names, construction of the
parameters, the dictionary with factories (FDict), and the family of factories of wake growth parameters (WakeKFactory).
Strings are lists of characters.
-/
namespace Foxes.Factory

abbrev Str := List Char

/-- The exceptions that occur; `other` stands for all other classes. -/
inductive Err
  | valueError | keyError | indexError | other
deriving DecidableEq, Repr

/-- `s.split(c)` for a single character: always at least one part -/
def pySplit (c : Char) : Str → List Str
  | [] => [[]]
  | d :: s =>
    if d = c then [] :: pySplit c s
    else match pySplit c s with
      | [] => [[d]]
      | x :: xs => (d :: x) :: xs

/-- `s.find(p)`: the smallest position at which `p` occurs -/
def find (p : Str) : Str → Option ℕ
  | [] => if p = [] then some 0 else none
  | c :: s => if p.isPrefixOf (c :: s) then some 0 else (find p s).map (· + 1)

/-- A parsed template: the texts `_pre` and the variables `_vars`; there is one more text than there are variables. -/
structure Template where
  pre : List Str
  vars : List Str
deriving DecidableEq

/-- the loop over the parts of the template (factory.py:86-99), `first` is `i == 0` -/
def parseParts (first : Bool) : List Str → Except Err Template
  | [] => .ok ⟨[], []⟩
  | [p] => .ok ⟨[p], []⟩
  | p :: q :: ps =>
    match pySplit '<' p with
    | [a, v] =>
      if first = false ∧ a = [] then .error .valueError
      else match parseParts false (q :: ps) with
        | .ok t => .ok ⟨a :: t.pre, v :: t.vars⟩
        | .error e => .error e
    | _ => .error .valueError

/-- the constructor's treatment of the template (factory.py:82-108); with several variables also the first needs a text before it
(the other texts were checked in the loop) -/
def parseTemplate (t : Str) : Except Err Template :=
  match parseParts true (pySplit '>' t) with
  | .error e => .error e
  | .ok r => if 1 < r.vars.length ∧ (r.pre.take (r.vars.length - 1)).any (· = []) then .error .valueError else .ok r

/-- the loop of `check_match` for all texts but the first (factory.py:270-287): `s` is `name[j:]`; an empty text takes the whole rest and
does not move `j` -/
def matchGo : List Str → Str → Option (List Str)
  | [], _ => some []
  | p :: ps, s =>
    if p = [] then (matchGo ps s).map (s :: ·)
    else match find p s with
      | none => none
      | some i => (matchGo ps (s.drop (i + p.length))).map (s.take i :: ·)

/-- the loop of `check_match` (factory.py:268-287): the values of the variables, or none for a mismatch; the first text has to be at
the beginning of the name -/
def matchName (t : Template) (s : Str) : Option (List Str) :=
  match t.pre with
  | [] => some []
  | p :: ps =>
    if p = [] then matchGo ps s
    else match find p s with
      | some 0 => matchGo ps (s.drop p.length)
      | _ => none

/-- An option of a variable (factory.py:111-129): a function, or a dictionary that maps strings to values (lists become such dictionaries). -/
inductive Opt (V : Type)
  | func (f : Str → Except Err V)
  | dict (l : List (Str × V))

/-- the value of an option for a given string (factory.py:294-299) -/
def Opt.eval {V : Type} : Opt V → Str → Except Err V
  | .func f, s => f s
  | .dict l, s =>
    match l.lookup s with
    | some v => .ok v
    | none => .error .keyError

/-- the keyword arguments: a dictionary -/
abbrev Kwargs (V : Type) := Str → Option V

/-- `kwargs[w] = v` -/
def setKw {V : Type} (k : Kwargs V) (w : Str) (v : V) : Kwargs V := fun a => if a = w then some v else k a

/-- A factory (factory.py:37-160). `base` is the constructor of the objects; `plain` embeds strings that are passed without an option. -/
structure Fac (V O : Type) where
  tmpl : Template
  v2a : List (Str × Str)
  opts : List (Str × Opt V)
  fixed : List (Str × V)
  plain : Str → V
  base : Kwargs V → Except Err O

/-- the name of the argument of a variable (factory.py:292) -/
def Fac.argOf {V O : Type} (f : Fac V O) (v : Str) : Str := (f.v2a.lookup v).getD v

/-- the value of a variable (factory.py:294-301) -/
def Fac.valOf {V O : Type} (f : Fac V O) (v w : Str) : Except Err V :=
  match f.opts.lookup v with
  | some o => o.eval w
  | none => .ok (f.plain w)

/-- the loop over the variables (factory.py:290-301) -/
def Fac.loop {V O : Type} (f : Fac V O) : List (Str × Str) → Kwargs V → Except Err (Kwargs V)
  | [], k => .ok k
  | (v, w) :: l, k =>
    match f.valOf v w with
    | .error e => .error e
    | .ok x => f.loop l (setKw k (f.argOf v) x)

/-- `kwargs.update(self.kwargs)` (factory.py:303) -/
def updFixed {V : Type} : List (Str × V) → Kwargs V → Kwargs V
  | [], k => k
  | (a, v) :: l, k => updFixed l (setKw k a v)

/-- `check_match(name, error=True, ret_pars=True)` (factory.py:268-304) -/
def Fac.pars {V O : Type} (f : Fac V O) (name : Str) : Except Err (Kwargs V) :=
  match matchName f.tmpl name with
  | none => .error .valueError
  | some ws =>
    match f.loop (f.tmpl.vars.zip ws) (fun _ => none) with
    | .error e => .error e
    | .ok k => .ok (updFixed f.fixed k)

/-- `construct` (factory.py:308-324) -/
def Fac.construct {V O : Type} (f : Fac V O) (name : Str) : Except Err O :=
  match f.pars name with
  | .error e => .error e
  | .ok k => f.base k

/-- `check_match(name)` (factory.py:268-287, 306) -/
def Fac.matches {V O : Type} (f : Fac V O) (name : Str) : Bool := (matchName f.tmpl name).isSome

/-- the texts at the beginning and the end of the template (factory.py:162-186); `_pre` is never empty -/
def Template.prefix (t : Template) : Str := t.pre.headD []
def Template.suffix (t : Template) : Str := t.pre.getLastD []

/-- `FDict` (factory.py:551-584). Objects carry an identity, the number at which they were created, so that it can be stated that a lookup
returns the same object again. -/
structure FDict (V O : Type) where
  stored : Str → Option (ℕ × O)
  next : ℕ
  storeCreated : Bool
  facs : List (Fac V O)

/-- the index at which `add_factory` inserts (factory.py:602-611): the loop goes down from the last factory, so the smallest index that
fulfils the condition wins -/
def insIndex (f : Template) : List Template → ℕ
  | [] => 0
  | g :: gs =>
    if g.prefix = f.prefix ∧ g.suffix = f.suffix ∧ g.vars.length < f.vars.length then 0 else insIndex f gs + 1

/-- `add_factory` (factory.py:586-616) -/
def FDict.addFactory {V O : Type} (d : FDict V O) (f : Fac V O) : FDict V O :=
  let i := insIndex f.tmpl (d.facs.map (·.tmpl))
  { d with facs := d.facs.take i ++ f :: d.facs.drop i }

/-- the loop over the factories in `__getitem__` (factory.py:681-689): the first that does not raise a ValueError decides -/
def firstFac {V O : Type} (key : Str) : List (Fac V O) → Except Err O
  | [] => .error .keyError
  | f :: fs =>
    match f.construct key with
    | .ok o => .ok o
    | .error .valueError => firstFac key fs
    | .error e => .error e

/-- `__getitem__` (factory.py:677-692) -/
def FDict.getItem {V O : Type} (d : FDict V O) (key : Str) : Except Err (ℕ × O) × FDict V O :=
  match d.stored key with
  | some o => (.ok o, d)
  | none =>
    match firstFac key d.facs with
    | .error e => (.error e, d)
    | .ok o =>
      let x := (d.next, o)
      if d.storeCreated then
        (.ok x, { d with stored := fun k => if k = key then some x else d.stored k, next := d.next + 1 })
      else (.ok x, { d with next := d.next + 1 })

/-- `d[key] = obj` by the user -/
def FDict.setItem {V O : Type} (d : FDict V O) (key : Str) (o : O) : FDict V O :=
  { d with stored := fun k => if k = key then some (d.next, o) else d.stored k, next := d.next + 1 }

/-- `key in d` (factory.py:632-638) -/
def FDict.contains {V O : Type} (d : FDict V O) (key : Str) : Bool :=
  (d.stored key).isSome || d.facs.any (·.matches key)

/-- what a user does with the dictionary -/
inductive Op (V O : Type)
  | lookup (key : Str)
  | assign (key : Str) (o : O)
  | addFac (f : Fac V O)

/-- one operation -/
def FDict.step {V O : Type} (d : FDict V O) : Op V O → FDict V O
  | .lookup k => (d.getItem k).2
  | .assign k o => d.setItem k o
  | .addFac f => d.addFactory f

/-- a sequence of operations -/
def FDict.runOps {V O : Type} (d : FDict V O) (l : List (Op V O)) : FDict V O := l.foldl FDict.step d

/-- value of a digit -/
def digitVal (c : Char) : ℕ := c.toNat - '0'.toNat

/-- value of a string of digits -/
def digitsVal (s : Str) : ℕ := s.foldl (fun a c => 10 * a + digitVal c) 0

/-- `float(s)` for strings of the form `123`, `1.25`, `1.` and `.5`. Simplified: signs, exponents, underscores, white space, `inf` and `nan` are not
modelled (they raise here), and the value is exact. -/
def pyFloat (s : Str) : Except Err ℚ :=
  match pySplit '.' s with
  | [a] => if a ≠ [] ∧ a.all Char.isDigit then .ok (digitsVal a : ℚ) else .error .valueError
  | [a, b] =>
    if (a ≠ [] ∨ b ≠ []) ∧ a.all Char.isDigit ∧ b.all Char.isDigit then .ok ((digitsVal a : ℚ) + (digitsVal b : ℚ) / 10 ^ b.length)
    else .error .valueError
  | _ => .error .valueError

/-- the values of k, ka, ambka, kb and kTI (factory.py:390-391, model_book.py:160): `float(f"0.{x[1:]}" if x[0] == "0" else float(x))` -/
def kval : Str → Except Err ℚ
  | [] => .error .indexError
  | c :: s => if c = '0' then pyFloat ('0' :: '.' :: s) else pyFloat (c :: s)

/-- `x[-1] == "s"` etc.: time steps in minutes (model_book.py:260-266); `NotImplementedError` is `other` -/
def todt (x : Str) : Except Err ℚ :=
  match x.getLast? with
  | none => .error .indexError
  | some c =>
    if c = 's' then (match pyFloat x.dropLast with | .ok v => .ok (v / 60) | .error e => .error e)
    else if "min".toList.isSuffixOf x then pyFloat (x.take (x.length - 3))
    else .error .other

/-- lengths in km (model_book.py:268-274); `x[-1]` of the empty string raises after the first test failed -/
def tokm (x : Str) : Except Err ℚ :=
  if "km".toList.isSuffixOf x then pyFloat (x.take (x.length - 2))
  else match x.getLast? with
    | none => .error .indexError
    | some c => if c = 'm' then (match pyFloat x.dropLast with | .ok v => .ok (v / 1000) | .error e => .error e) else .error .other

/-- the six templates of a `WakeKFactory` (factory.py:372-494), with the mapping of variables to arguments and the variable of the turbulence
intensity; `t0` and `t1` are the parts of the template before and after `_[wake_k]` -/
def wakeKCases : List (String × List (String × String) × List String × String) :=
  [ ("_ka<ka>_kb<kb>", [], ["ka", "kb"], "TI"),
    ("_ambka<ambka>_kb<kb>", [("ambka", "ka")], ["ambka", "kb"], "AMB_TI"),
    ("_ka<ka>", [], ["ka"], "TI"),
    ("_ambka<ambka>", [("ambka", "ka")], ["ambka"], "AMB_TI"),
    ("_k<k>", [], ["k"], "TI"),
    ("", [], [], "TI") ]

/-- values of keyword arguments of wake models: numbers and strings -/
inductive KV
  | num (q : ℚ)
  | str (s : Str)
deriving DecidableEq

/-- the factory of one case: the user's options and fixed arguments `fixed` (in the code also a user's `var2arg`; it is only passed on for the two
ambient cases, factory.py:419, 459; in the model book no template with `_[wake_k]` has one, and it is not modelled) -/
def wakeKFac {O : Type} (t0 t1 : Str) (opts : List (Str × Opt KV)) (fixed : List (Str × KV)) (base : Kwargs KV → Except Err O)
    (c : String × List (String × String) × List String × String) : Except Err (Fac KV O) :=
  match parseTemplate (t0 ++ c.1.toList ++ t1) with
  | .error e => .error e
  | .ok t => .ok
    { tmpl := t
      v2a := c.2.1.map (fun p => (p.1.toList, p.2.toList))
      opts := opts ++ c.2.2.1.map (fun v => (v.toList, Opt.func (fun s => (kval s).map KV.num)))
      fixed := fixed ++ [("ti_var".toList, KV.str c.2.2.2.toList)]
      plain := KV.str
      base := base }

/-- `add_k_factory` (factory.py:618-630) for all cases whose template is accepted -/
def addKFactory {O : Type} (d : FDict KV O) (t0 t1 : Str) (opts : List (Str × Opt KV)) (fixed : List (Str × KV)) (base : Kwargs KV → Except Err O) :
    Except Err (FDict KV O) :=
  wakeKCases.foldl (fun r c => match r with
    | .error e => .error e
    | .ok d => match wakeKFac t0 t1 opts fixed base c with
      | .error e => .error e
      | .ok f => .ok (d.addFactory f)) (.ok d)

end Foxes.Factory
