/-
Model of `foxes/utils/dict.py` (Dict).

Simplifications: values other than dictionaries are opaque; keys are strings or other objects; object identity is not modelled; the printing of known keys is left out.
-/
namespace Foxes.CfgDict

inductive Err
  | type | key | assert
deriving DecidableEq, Repr

inductive Key
  | str (s : String)
  | other (n : Nat)
deriving DecidableEq, Repr

/-- `f"{k}"` -/
def Key.show : Key → String
  | .str s => s
  | .other n => toString n

mutual
/-- a value: something opaque, an ordinary dictionary, or a foxes dictionary with its name -/
inductive Val
  | leaf (x : Nat)
  | plain (es : Ents)
  | dct (name : String) (es : Ents)
/-- entries in order -/
inductive Ents
  | nil
  | cons (k : Key) (v : Val) (r : Ents)
end

def Ents.get : Ents → Key → Option Val
  | .nil, _ => none
  | .cons k v r, q => if k = q then some v else r.get q

def Ents.keys : Ents → List Key
  | .nil => []
  | .cons k _ r => k :: r.keys

/-- `d[k] = v`: the position of a known key is kept -/
def Ents.set : Ents → Key → Val → Ents
  | .nil, q, x => .cons q x .nil
  | .cons k v r, q, x => if k = q then .cons k x r else .cons k v (r.set q x)

/-- `del d[k]` -/
def Ents.del : Ents → Key → Ents
  | .nil, _ => .nil
  | .cons k v r, q => if k = q then r else .cons k v (r.del q)

/-- `d.update(e)` -/
def Ents.update (d : Ents) : Ents → Ents
  | .nil => d
  | .cons k v r => (d.set k v).update r

/-- entries one after the other -/
def Ents.append : Ents → Ents → Ents
  | .nil, e => e
  | .cons k v r, e => .cons k v (r.append e)

mutual
/-- the conversion of a value (dict.py:33-41, 47-51, 97-98): an ordinary dictionary becomes a foxes dictionary with this name, anything else stays -/
def wrap (name : String) : Val → Except Err Val
  | .leaf x => .ok (.leaf x)
  | .dct n es => .ok (.dct n es)
  | .plain es =>
    match conv name es with
    | .error e => .error e
    | .ok es' => .ok (.dct name es')
/-- the entries of `Dict(es, name=name)` (dict.py:30-44): values are converted, `**tmp` needs keys that are strings -/
def conv (name : String) : Ents → Except Err Ents
  | .nil => .ok .nil
  | .cons k v r =>
    match wrap (name ++ "." ++ k.show) v with
    | .error e => .error e
    | .ok v' =>
      match k with
      | .other _ => .error .type
      | .str s =>
        match conv name r with
        | .error e => .error e
        | .ok r' => .ok (.cons (.str s) v' r')
end

/-- conversion of the keyword arguments (dict.py:45-53): the name of a nested one is the key alone -/
def convKw : Ents → Except Err Ents
  | .nil => .ok .nil
  | .cons k v r =>
    match wrap k.show v with
    | .error e => .error e
    | .ok v' =>
      match convKw r with
      | .error e => .error e
      | .ok r' => .ok (.cons k v' r')

/-- all positional arguments merged (dict.py:30-41) -/
def merge (name : String) : Ents → List Ents → Except Err Ents
  | tmp, [] => .ok tmp
  | tmp, a :: as =>
    match conv name a with
    | .error e => .error e
    | .ok a' => merge name (tmp.update a') as

/-- `Dict(*args, name=name, **kwargs)` (dict.py:17-56): no name is `None` in the names of nested dictionaries, and the class name for itself -/
def new (args : List Ents) (name : Option String) (kw : Ents) : Except Err Val :=
  match merge (name.getD "None") .nil args with
  | .error e => .error e
  | .ok tmp =>
    match convKw kw with
    | .error e => .error e
    | .ok kw' =>
      if kw'.keys.any fun k => (tmp.get k).isSome then .error .type
      else .ok (.dct (name.getD "Dict") (tmp.append kw'))

/-- `get_item` (dict.py:58-100) of a foxes dictionary -/
def getItem (name : String) (es : Ents) (key : Key) (deflt : List Val) : Except Err Val :=
  match deflt with
  | [] =>
    match es.get key with
    | none => .error .key
    | some v => wrap (name ++ "." ++ key.show) v
  | [d] => wrap (name ++ "." ++ key.show) ((es.get key).getD d)
  | _ => .error .assert

/-- `pop_item` (dict.py:102-123): value and the entries afterwards -/
def popItem (name : String) (es : Ents) (key : Key) (deflt : List Val) : Except Err (Val × Ents) :=
  match getItem name es key deflt with
  | .error e => .error e
  | .ok v => .ok (v, if (es.get key).isSome then es.del key else es)

end Foxes.CfgDict
