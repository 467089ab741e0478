import Verif.Model.CaseIgnoreDict
/-!
Attribute dictionaries (laurelin/ldap/attrsdict.py), attribute value lists
(laurelin/ldap/attrvaluelist.py) and the search of a value in a value list
(laurelin/ldap/attributetype.py `index`).

Attribute values (`str` or `bytes`) are an arbitrary type `V`. Type errors (`TypeError` for a non-string
name, non-list values, ...) are not modelled except where noted: they are excluded by typing.
-/
namespace Laurelin

/-- attrsdict.py:7 `AttrsDict`: a `CaseIgnoreDict` from attribute names to value lists. -/
abbrev AttrsDict (V : Type) := CIDict Str (List V)

namespace AttrsDict
variable {V : Type} (lower : Str → Str)

/-- attrsdict.py:13-20 `get_attr`. -/
def getAttr (d : AttrsDict V) (attr : Str) : List V :=
  match CIDict.get lower d attr with
  | some l => l
  | none => []

/-- attrsdict.py:44-48 `__contains__`. -/
def has (d : AttrsDict V) (attr : Str) : Bool :=
  match CIDict.getItem lower d attr with
  | .ok l => decide (0 < l.length)
  | .error _ => false

/-- attrsdict.py:22-26 `iterattrs`: the pairs it yields, in order. -/
def iterattrs (d : AttrsDict V) : List (Str × V) :=
  d.items.flatMap (fun kv => kv.2.map (fun v => (kv.1, v)))

/-- attrsdict.py:28-35 `deepcopy`: a native dict with fresh lists. -/
def deepcopy (d : AttrsDict V) : PDict Str (List V) :=
  d.items.foldl (fun ret kv => ret.set kv.1 kv.2) []

/-- attrsdict.py:55-63 `setdefault` (`default=None` becomes `[]`). -/
def setDefault (d : AttrsDict V) (attr : Str) (dflt : Option (List V)) : AttrsDict V × List V :=
  CIDict.setDefault lower d attr (dflt.getD [])

end AttrsDict

/-- What `index` uses of an attribute type (attributetype.py:36-202) with its rules resolved:
`validate` is attributetype.py:169-180, `prepare`/`doMatch` are those of the equality rule
(rules.py:147-155). A type without an equality rule raises `LDAPSchemaError` when `.equality` is read,
which is `prepare` failing. `default` is `DefaultAttributeType` (attributetype.py:242-272). -/
inductive AttrType (V : Type) where
  | default
  | defined (validate : V → Except Err Unit) (prepare : V → Except Err V) (doMatch : V → V → Except Err Bool)

namespace AttrType
variable {V : Type} [DecidableEq V]

/-- attributetype.py:198-202: the loop of `index`, from position `i`. -/
def indexLoop (prepare : V → Except Err V) (doMatch : V → V → Except Err Bool) (a : V) :
    Nat → List V → Except Err Nat
  | _, [] => .error .valueError
  | i, x :: xs =>
    match prepare x with
    | .error e => .error e
    | .ok p =>
      match doMatch p a with
      | .error e => .error e
      | .ok true => .ok i
      | .ok false => indexLoop prepare doMatch a (i + 1) xs

/-- builtin `list.index` -/
def listIndex (a : V) : Nat → List V → Except Err Nat
  | _, [] => .error .valueError
  | i, x :: xs => if x = a then .ok i else listIndex a (i + 1) xs

/-- attributetype.py:182-202 `AttributeType.index`, attributetype.py:271-272 `DefaultAttributeType.index`. -/
def index (t : AttrType V) (l : List V) (a : V) : Except Err Nat :=
  match t with
  | .default => listIndex a 0 l
  | .defined validate prepare doMatch =>
    if l.isEmpty then .error .valueError
    else
      match validate a with
      | .error e => .error e
      | .ok _ =>
        match prepare a with
        | .error e => .error e
        | .ok p => indexLoop prepare doMatch p 0 l

end AttrType

/-- `get_attribute_type` as seen by the code below: total lookup that may raise
(attributetype.py:20-33; `KeyError` for an unregistered numeric OID, `IndexError` for the empty string). -/
abbrev TypeOf (V : Type) := Str → Except Err (AttrType V)

namespace AttrValueList
variable {V : Type} [DecidableEq V]

/-- attrvaluelist.py:23-36 `index`. `extensions.base_schema.require()` only loads the schema. -/
def index (typeOf : TypeOf V) (attr : Str) (l : List V) (v : V) : Except Err Nat :=
  match typeOf attr with
  | .error e => .error e
  | .ok t => t.index l v

/-- attrvaluelist.py:16-21 `__contains__`: only `ValueError` is turned into `False`. -/
def contains (typeOf : TypeOf V) (attr : Str) (l : List V) (v : V) : Except Err Bool :=
  match index typeOf attr l v with
  | .ok _ => .ok true
  | .error .valueError => .ok false
  | .error e => .error e

/-- attrvaluelist.py:38-51 `count`. -/
def count (typeOf : TypeOf V) (attr : Str) (l : List V) (v : V) : Except Err Nat :=
  match index typeOf attr l v with
  | .ok _ => .ok 1
  | .error .valueError => .ok 0
  | .error e => .error e

/-- attrvaluelist.py:53-61 `remove`. -/
def remove (typeOf : TypeOf V) (attr : Str) (l : List V) (v : V) : Except Err (List V) :=
  match index typeOf attr l v with
  | .ok i => .ok (l.eraseIdx i)
  | .error e => .error e

end AttrValueList
end Laurelin
