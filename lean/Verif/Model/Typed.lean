import Verif.Model.CaseIgnoreDict
import Verif.Model.Codec
/-!
# What attribute dictionaries accept (laurelin/ldap/attrsdict.py, ldapobject.py:75-79, attrvaluelist.py:13-15)

Everywhere else in this model attribute dictionaries are typed. Here the arguments are any Python values and lists are objects: a place in the store, which the caller or the library may change. The caller's lists
are `mine n`, the lists made by the library are `its n`. Not modelled: strings and lists of classes derived from the builtin ones, `pop`, `popitem` and other inherited methods (C76), Python 2.
-/
namespace Laurelin
namespace Typed
open Codec

/-- a list object: one of the caller's, or one made by the library (attrsdict.py:57, ldapobject.py:78) -/
inductive Ref where
  | mine (n : Nat)
  | its (n : Nat)
  deriving DecidableEq, Repr

/-- Python values, as far as the checks of attrsdict.py:55-110 tell them apart; `deleteAll` is the constant of constants.py:57 -/
inductive PVal where
  | text (s : Str)
  | octets (b : Bytes)
  | list (r : Ref)
  | deleteAll
  | none
  | other (n : Nat)
  deriving DecidableEq, Repr

/-- what is passed to `update` (attrsdict.py:63-65): an `AttrsDict`, another `dict` (its items in order), or anything else -/
inductive Arg where
  | attrs (d : CIDict Str PVal)
  | dict (items : List (PVal × PVal))
  | other

/-- `AttrsDict` attrsdict.py:7, or its subclass `LDAPObject` ldapobject.py:17 -/
inductive Kind where
  | attrs
  | object
  deriving DecidableEq, Repr

/-- the caller's list objects, those of the library in the order they were made, and the dictionary (utils.py:124-129) -/
structure St where
  mine : Nat → List PVal
  its : List (List PVal)
  d : CIDict Str PVal

/-- the dictionary when `__init__` attrsdict.py:39-40 begins -/
def St.init (mine : Nat → List PVal) : St := ⟨mine, [], CIDict.empty⟩

/-- the elements of a list object -/
def St.contents (st : St) : Ref → List PVal
  | .mine n => st.mine n
  | .its n => st.its.getD n []

/-- `isinstance(val, six.string_types)` or `isinstance(val, six.binary_type)`, attrsdict.py:109 -/
def isStr : PVal → Bool
  | .text _ => true
  | .octets _ => true
  | _ => false

/-- `validate_values` attrsdict.py:96-110 -/
def validateValues (st : St) : PVal → Except Err Unit
  | .deleteAll => .ok ()
  | .list r => if (st.contents r).all isStr then .ok () else .error .typeError
  | _ => .error .typeError

/-- `validate_attr` attrsdict.py:85-93 -/
def validateAttr : PVal → Except Err Unit
  | .text _ => .ok ()
  | _ => .error .typeError

/-- the loop of `validate` attrsdict.py:80-82 -/
def validateItems (st : St) : List (PVal × PVal) → Except Err Unit
  | [] => .ok ()
  | (k, v) :: rest =>
    match validateAttr k with
    | .error e => .error e
    | .ok _ =>
      match validateValues st v with
      | .error e => .error e
      | .ok _ => validateItems st rest

/-- `validate` attrsdict.py:68-82 -/
def validate (st : St) : Arg → Except Err Unit
  | .attrs _ => .ok ()
  | .other => .error .typeError
  | .dict items => validateItems st items

variable (lower : Str → Str)

/-- `AttrsDict.__setitem__` attrsdict.py:50-53 -/
def attrsSet (st : St) (k v : PVal) : St × Except Err Unit :=
  match k with
  | .text a =>
    match validateValues st v with
    | .error e => (st, .error e)
    | .ok _ => ({ st with d := st.d.setItem lower a v }, .ok ())
  | _ => (st, .error .typeError)

/-- `self[k] = v`: `AttrsDict.__setitem__` as above, `LDAPObject.__setitem__` ldapobject.py:75-79, which makes a new list (attrvaluelist.py:13-15) -/
def setItem (kind : Kind) (st : St) (k v : PVal) : St × Except Err Unit :=
  match kind with
  | .attrs => attrsSet lower st k v
  | .object =>
    match v with
    | .list r => attrsSet lower { st with its := st.its ++ [st.contents r] } k (.list (.its st.its.length))
    | _ => (st, .error .typeError)

/-- attrsdict.py:57-58: `None` is a new empty list -/
def orNew (st : St) : PVal → St × PVal
  | .none => ({ st with its := st.its ++ [[]] }, .list (.its st.its.length))
  | v => (st, v)

/-- `setdefault` attrsdict.py:55-61, utils.py:135-140 -/
def setDefault (kind : Kind) (st : St) (k dflt : PVal) : St × Except Err PVal :=
  match k with
  | .text a =>
    let p := orNew st dflt
    match validateValues p.1 p.2 with
    | .error e => (p.1, .error e)
    | .ok _ =>
      match p.1.d.getItem lower a with
      | .ok v => (p.1, .ok v)
      | .error _ =>
        let q := setItem lower kind p.1 k p.2
        (q.1, q.2.map (fun _ => p.2))
  | _ => (st, .error .typeError)

/-- the loop of `CaseIgnoreDict.update` utils.py:159-161 over the items of a plain `dict` -/
def updateLoop (kind : Kind) : St → List (PVal × PVal) → St × Except Err Unit
  | st, [] => (st, .ok ())
  | st, (k, v) :: rest =>
    match setItem lower kind st k v with
    | (st', .error e) => (st', .error e)
    | (st', .ok _) => updateLoop kind st' rest

/-- the same over another `CaseIgnoreDict`: the underlying keys, looked up ignoring their case. A dictionary that is updated with itself gets the values it has. -/
def updateFrom (kind : Kind) (e : CIDict Str PVal) : St → List Str → St × Except Err Unit
  | st, [] => (st, .ok ())
  | st, k :: rest =>
    match e.getItem lower k with
    | .error x => (st, .error x)
    | .ok v =>
      match setItem lower kind st (.text k) v with
      | (st', .error x) => (st', .error x)
      | (st', .ok _) => updateFrom kind e st' rest

/-- `update` attrsdict.py:63-65, and `__init__` (39-40, utils.py:126-129) with an argument -/
def update (kind : Kind) (st : St) (arg : Arg) : St × Except Err Unit :=
  match validate st arg with
  | .error e => (st, .error e)
  | .ok _ =>
    match arg with
    | .other => (st, .ok ())
    | .dict items => updateLoop lower kind st items
    | .attrs e => updateFrom lower kind e st (PDict.keys e.data)

/-- what the user's program does: the calls on the dictionary, and any change of a list object it has got hold of -/
inductive Call where
  | change (r : Ref) (vs : List PVal)
  | set (k v : PVal)
  | setdefault (k dflt : PVal)
  | update (arg : Arg)
  | del (k : PVal)
  | clear

/-- a list object gets other elements -/
def St.change (st : St) (r : Ref) (vs : List PVal) : St :=
  match r with
  | .mine n => { st with mine := fun m => if m = n then vs else st.mine m }
  | .its n => { st with its := st.its.set n vs }

/-- one step: attrsdict.py:50-65, `__delitem__` and `clear` utils.py:163-171. What a call returns matters for `setdefault` only. -/
def step (kind : Kind) (st : St) : Call → St × Except Err PVal
  | .change r vs => (st.change r vs, .ok .none)
  | .set k v => let q := setItem lower kind st k v; (q.1, q.2.map (fun _ => .none))
  | .setdefault k v => setDefault lower kind st k v
  | .update arg => let q := update lower kind st arg; (q.1, q.2.map (fun _ => .none))
  | .del (.text a) =>
    match st.d.delItem lower a with
    | .error e => (st, .error e)
    | .ok d => ({ st with d := d }, .ok .none)
  | .del _ => (st, .error .attributeError)
  | .clear => ({ st with d := CIDict.empty }, .ok .none)

/-- a history of these, attrsdict.py:50-65 -/
def run (kind : Kind) : St → List Call → St
  | st, [] => st
  | st, c :: cs => run kind (step lower kind st c).1 cs

end Typed
end Laurelin
