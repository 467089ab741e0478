import Verif.Model.ObjectSchema
/-!
Asking object classes about attributes, in between validating objects: the instances are shared, and all of it writes to what they remember (objectclass.py:123-151).
`ext`: the OIDs of the classes made as `ExtensibleObjectClass` (objectclass.py:197-200).
-/
namespace Laurelin.ObjectSchema
open Laurelin AttrSchema Schema

/-- `get_object_class(cls).required_attr(name)`, objectclass.py:20-33, 162-169. A `DefaultObjectClass` (176-191) has no attributes. -/
def requiredAttr (lower : Str → Str) (c : Classes) (depth : Nat) (m : Memo) (cls name : Str) : Memo × Except Err Bool :=
  match c.reg.find lower cls with
  | .error e => (m, .error e)
  | .ok (.dflt _) => (m, .ok false)
  | .ok (.elem e) =>
    match mustOf (c.graph lower (·.must)) depth m.must e.body with
    | (s, .error x) => (⟨s, m.may⟩, .error x)
    | (s, .ok must) => (⟨s, m.may⟩, .ok (must.contains name))

/-- was instance `i` made as an `ExtensibleObjectClass`? -/
def Classes.extensible (c : Classes) (ext : List Str) (i : Nat) : Bool :=
  match c.table[i]? with
  | some f => ext.contains f.oid
  | none => false

/-- `get_object_class(cls).allowed_attr(name)`, objectclass.py:153-160: `may` is read first, `must` only if the name is not there; 199-200 for an `ExtensibleObjectClass` -/
def allowedAttr (lower : Str → Str) (ext : List Str) (c : Classes) (depth : Nat) (m : Memo) (cls name : Str) : Memo × Except Err Bool :=
  match c.reg.find lower cls with
  | .error e => (m, .error e)
  | .ok (.dflt _) => (m, .ok false)
  | .ok (.elem e) =>
    if c.extensible ext e.body then (m, .ok true)
    else match mustOf (c.graph lower (·.may)) depth m.may e.body with
      | (t, .error x) => (⟨m.must, t⟩, .error x)
      | (t, .ok may) =>
        if may.contains name then (⟨m.must, t⟩, .ok true)
        else match mustOf (c.graph lower (·.must)) depth m.must e.body with
          | (s, .error x) => (⟨s, t⟩, .error x)
          | (s, .ok must) => (⟨s, t⟩, .ok (must.contains name))

/-- the one class that is shipped as an `ExtensibleObjectClass`, extensions/base_schema.py:204-207 -/
def extensibleOids : List Str := [str "1.3.6.1.4.1.1466.101.120.111"]

/-- what can be asked -/
inductive Ask where
  | required (cls name : Str)
  | allowed (cls name : Str)
  | object (obj : CIDict Str (List Str)) (write : Bool)
  | lists (cls : Str)

/-- Asking. Validating an object answers `True` or raises (schema.py:20-56); so does reading `must` and `may` of a class here, as netgroups.py:127-129 does. -/
def ask (env : Env) (ext : List Str) (c : Classes) (m : Memo) : Ask → Memo × Except Err Bool
  | .required cls name => requiredAttr env.lower c env.depth m cls name
  | .allowed cls name => allowedAttr env.lower ext c env.depth m cls name
  | .object obj write => match validateObject env c m obj write with
    | (m, .error e) => (m, .error e)
    | (m, .ok _) => (m, .ok true)
  | .lists cls => match readClass env.lower c env.depth m cls with
    | (m, .error e) => (m, .error e)
    | (m, .ok _) => (m, .ok true)

/-- one after the other, whatever each answers or raises -/
def asked (env : Env) (ext : List Str) (c : Classes) (m : Memo) : List Ask → Memo
  | [] => m
  | q :: l => asked env ext c (ask env ext c m q).1 l

/-- `OBJECT_CLASS`, netgroups.py:124 -/
def netgroupClass : Str := str "nisNetgroup"

/-- `_netgroup_attrs()`, netgroups.py:127-129 -/
def netgroupAttrs (env : Env) (c : Classes) (m : Memo) : Memo × Except Err (List Str) :=
  match readClass env.lower c env.depth m netgroupClass with
  | (m, .error e) => (m, .error e)
  | (m, .ok (must, may)) => (m, .ok (must ++ may))

/-- `_netgroup_attrs_arg(attrs)`, netgroups.py:132-136: the attributes that `get` and `search` (140-169) ask for -/
def netgroupAttrsArg (env : Env) (c : Classes) (m : Memo) : Option (List Str) → Memo × Except Err (List Str)
  | none => netgroupAttrs env c m
  | some attrs => (m, .ok attrs)

end Laurelin.ObjectSchema
