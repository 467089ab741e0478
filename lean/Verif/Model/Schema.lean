import Verif.Model.CaseIgnoreDict
/-!
# Schema elements: laurelin/ldap/attributetype.py, objectclass.py, rules.py, schema.py, validation.py

Elements are given here by what the parser extracts from their textual specifications; the parser itself (regular expressions over
rfc4512.py) is Model/SchemaSpec.lean. Warnings and logging are not modelled.
-/
namespace Laurelin.Schema

/-- Python's `ident[0].isdigit()`: `IndexError` on the empty string. `isdigit` is restricted to the ASCII digits. -/
def numeric : Str → Except Err Bool
  | [] => .error .indexError
  | c :: _ => .ok (decide ('0' ≤ c) && decide (c ≤ '9'))

/-! ### Registries of attribute types and object classes -/

/-- What `register` uses of an element (attribute type or object class): its OID and its names. -/
structure Elem (E : Type) where
  oid : Str
  names : List Str
  body : E
  deriving DecidableEq, Repr

/-- attributetype.py:16-17 `_oid_attribute_types`/`_name_attribute_types`, objectclass.py:15-16. -/
structure Reg (E : Type) where
  oids : PDict Str (Elem E)
  names : CIDict Str (Elem E)

def Reg.empty {E : Type} : Reg E := ⟨[], CIDict.empty⟩

/-- the name loop of `register`, attributetype.py:143-146, objectclass.py:118-121; stops at the first duplicate -/
def regNames {E : Type} (lower : Str → Str) (e : Elem E) (d : CIDict Str (Elem E)) : List Str → CIDict Str (Elem E) × Except Err Unit
  | [] => (d, .ok ())
  | n :: ns => if d.contains lower n then (d, .error .ldapSchema) else regNames lower e (d.setItem lower n e) ns

/-- `register`, attributetype.py:136-146 and objectclass.py:111-121 -/
def Reg.register {E : Type} (lower : Str → Str) (r : Reg E) (e : Elem E) : Reg E × Except Err Unit :=
  if (r.oids.get? e.oid).isSome then (r, .error .ldapSchema)
  else
    let q := regNames lower e r.names e.names
    (⟨r.oids.set e.oid e, q.1⟩, q.2)

/-- Outcome of a lookup: a registered element, or the default object made for an unknown name. -/
inductive Found (E : Type) where
  | elem (e : Elem E)
  | dflt (name : Str)
  deriving DecidableEq, Repr

/-- `get_attribute_type`, attributetype.py:20-33; `get_object_class`, objectclass.py:21-34 -/
def Reg.find {E : Type} (lower : Str → Str) (r : Reg E) (ident : Str) : Except Err (Found E) :=
  match numeric ident with
  | .error e => .error e
  | .ok true => match r.oids.get? ident with
    | some e => .ok (.elem e)
    | none => .error .keyError
  | .ok false => match r.names.getItem lower ident with
    | .ok e => .ok (.elem e)
    | .error _ => .ok (.dflt ident)

/-- A history of registrations with each one's outcome. -/
def Reg.run {E : Type} (lower : Str → Str) (r : Reg E) : List (Elem E) → Reg E × List (Except Err Unit)
  | [] => (r, [])
  | e :: es => let q := r.register lower e; let q' := Reg.run lower q.1 es; (q'.1, q.2 :: q'.2)

/-! ### Matching rules: classes registered, instances made on demand -/

/-- a matching rule class (rules.py:106-121): OID and NAME may be empty -/
structure Rule where
  oid : Str
  name : Str
  deriving DecidableEq, Repr

/-- an instance: its identity and its class -/
structure RuleObj where
  id : Nat
  cls : Rule
  deriving DecidableEq, Repr

/-- rules.py:86-89: the four dictionaries; `next` numbers the instances -/
structure MReg where
  oidC : PDict Str Rule
  nameC : CIDict Str Rule
  oidO : PDict Str RuleObj
  nameO : CIDict Str RuleObj
  next : Nat

def MReg.empty : MReg := ⟨[], CIDict.empty, [], CIDict.empty, 0⟩

/-- `MatchingRule.register`, rules.py:134-143 -/
def MReg.register (lower : Str → Str) (r : MReg) (c : Rule) : MReg × Except Err Unit :=
  if c.oid ≠ [] ∧ (r.oidC.get? c.oid).isSome then (r, .error .ldapSchema)
  else
    let r := if c.oid ≠ [] then { r with oidC := r.oidC.set c.oid c } else r
    if c.name ≠ [] ∧ r.nameC.contains lower c.name then (r, .error .ldapSchema)
    else (if c.name ≠ [] then { r with nameC := r.nameC.setItem lower c.name c } else r, .ok ())

/-- `MatchingRule.__init__`, rules.py:124-132 -/
def MReg.instantiate (lower : Str → Str) (r : MReg) (c : Rule) : MReg × Except Err RuleObj :=
  let o : RuleObj := ⟨r.next, c⟩
  let r := { r with next := r.next + 1 }
  if c.oid ≠ [] ∧ (r.oidO.get? c.oid).isSome then (r, .error .ldapSchema)
  else
    let r := if c.oid ≠ [] then { r with oidO := r.oidO.set c.oid o } else r
    if c.name ≠ [] ∧ r.nameO.contains lower c.name then (r, .error .ldapSchema)
    else (if c.name ≠ [] then { r with nameO := r.nameO.setItem lower c.name o } else r, .ok o)

/-- `get_matching_rule`, rules.py:92-103 -/
def MReg.find (lower : Str → Str) (r : MReg) (ident : Str) : MReg × Except Err RuleObj :=
  match numeric ident with
  | .error e => (r, .error e)
  | .ok true => match r.oidO.get? ident with
    | some o => (r, .ok o)
    | none => match r.oidC.get? ident with
      | some c => r.instantiate lower c
      | none => (r, .error .keyError)
  | .ok false => match r.nameO.get lower ident with
    | some o => (r, .ok o)
    | none => match r.nameC.getItem lower ident with
      | .ok c => r.instantiate lower c
      | .error e => (r, .error e)

/-- one use of the matching rule registry -/
inductive MOp where
  | register (c : Rule)
  | find (ident : Str)

/-- the state after a history -/
def MReg.run (lower : Str → Str) (r : MReg) : List MOp → MReg
  | [] => r
  | .register c :: ops => MReg.run lower (r.register lower c).1 ops
  | .find i :: ops => MReg.run lower (r.find lower i).1 ops

/-! ### `must` / `may` of object classes -/

/-- objectclass.py:98-109: superclass identifiers and the class's own list (`my_must` or `my_may`). -/
structure OC where
  supers : List Str
  own : List Str
  deriving DecidableEq, Repr

/-- The mutable part of the classes, by class identity: whether `_must` has been set, and the list object `my_must` – which is the very list
`_must` refers to once set, so that `+=` changes both (objectclass.py:129-134). -/
structure OCState where
  seen : Nat → Bool
  mine : Nat → List Str

/-- The classes and what `get_object_class` resolves a superclass identifier to: a class, `none` for the empty default class of an unknown name
(objectclass.py:34), or `KeyError` for an unknown OID. -/
structure OCGraph where
  cls : Nat → OC
  resolve : Str → Except Err (Option Nat)

def OCGraph.start (g : OCGraph) : OCState := ⟨fun _ => false, fun i => (g.cls i).own⟩

def setAt {α : Type} (f : Nat → α) (i : Nat) (x : α) : Nat → α := fun j => if j = i then x else f j

/-- The `for` loop over the superclasses, objectclass.py:131-133; `rec` reads `must` of a superclass. On an exception the lists changed so far stay changed. -/
def mustLoop (g : OCGraph) (rec : OCState → Nat → OCState × Except Err (List Str)) (i : Nat) (st : OCState) : List Str → OCState × Except Err (List Str)
  | [] => (st, .ok (st.mine i))
  | s :: ss => match g.resolve s with
    | .error e => (st, .error e)
    | .ok none => mustLoop g rec i st ss
    | .ok (some j) =>
      match rec st j with
      | (st', .error e) => (st', .error e)
      | (st', .ok l) => mustLoop g rec i ⟨st'.seen, setAt st'.mine i (st'.mine i ++ l)⟩ ss

/-- The `must` property (`may` is the same code, objectclass.py:124-151). `fuel` is the remaining recursion depth. -/
def mustOf (g : OCGraph) : Nat → OCState → Nat → OCState × Except Err (List Str)
  | 0, st, _ => (st, .error .recursion)
  | fuel + 1, st, i =>
    if st.seen i then (st, .ok (st.mine i))
    else mustLoop g (mustOf g fuel) i ⟨setAt st.seen i true, st.mine⟩ (g.cls i).supers

/-! ### Attribute types: inheritance through `__getattr__` -/

/-- What an attribute type specification says (attributetype.py:67-134): the optional properties it states itself, by name of the
instance attribute, and its supertype. `usage` etc. are values of type `F → X`. -/
structure ATSpec (F X : Type) where
  own : F → Option X
  supertype : Option Str

/-- What `get_attribute_type` gives for a supertype identifier: a type, the default type for an unknown name, or `KeyError`. -/
structure ATGraph (F X : Type) where
  spec : Nat → ATSpec F X
  resolve : Str → Except Err (Option Nat)
  /-- the value set when a property is not stated and there is no supertype (attributetype.py:85-134) -/
  dflt : F → X
  /-- the plain attributes of `DefaultAttributeType` (attributetype.py:251-262); `none`: not set -/
  undefinedType : F → Option X

/-- `getattr(t, name)` for one of the properties: the instance attribute if it is set, else `__getattr__`, attributetype.py:162-167. -/
def getAttrOf {F X : Type} (g : ATGraph F X) (f : F) : Nat → Nat → Except Err X
  | 0, _ => .error .recursion
  | fuel + 1, t =>
    match (g.spec t).own f with
    | some x => .ok x
    | none => match (g.spec t).supertype with
      | none => .ok (g.dflt f)
      | some s => match g.resolve s with
        | .error e => .error e
        | .ok (some t') => getAttrOf g f fuel t'
        | .ok none => match g.undefinedType f with
          | some x => .ok x
          | none => .error .attributeError

/-- The `syntax` and `equality` properties, attributetype.py:148-160, read on type `t`; `f` is `syntax_oid`/`equality_oid` and `ruleOf` looks the rule up (raising
`LDAPSchemaError` for an empty OID). A property getter that raises `AttributeError` makes Python call `__getattr__` with the property's own
name, so the supertype's property is tried then. `dfltRule`: the property of `DefaultAttributeType` (attributetype.py:264-270). -/
def ruleOfType {F X R : Type} (g : ATGraph F X) (f : F) (ruleOf : X → Except Err R) (dfltRule : R) : Nat → Nat → Except Err R
  | 0, _ => .error .recursion
  | fuel + 1, t =>
    match getAttrOf g f (fuel + 1) t with
    | .ok x => ruleOf x
    | .error .attributeError => match (g.spec t).supertype with
      | none => .error .attributeError
      | some s => match g.resolve s with
        | .error e => .error e
        | .ok (some t') => ruleOfType g f ruleOf dfltRule fuel t'
        | .ok none => .ok dfltRule
    | .error e => .error e

/-! ### Schema validation -/

/-- What validation uses of an attribute type: reading a property may raise (C34). -/
structure AttrInfo (V : Type) where
  singleValue : Except Err Bool
  noUserMod : Except Err Bool
  obsolete : Except Err Bool
  syntaxLength : Except Err Int
  /-- `self.syntax.validate(value)` -/
  syn : V → Except Err Unit
  length : V → Nat

/-- `AttributeType.validate`, attributetype.py:169-180 -/
def AttrInfo.validate {V : Type} (a : AttrInfo V) (v : V) : Except Err Unit := do
  let n ← a.syntaxLength
  if n > -1 ∧ (a.length v : Int) > n then .error .invalidSyntax else a.syn v

/-- The schema as validation sees it: `must`/`may` of a class (C33), and attribute types by name. -/
structure SchemaEnv (V : Type) where
  classOf : Str → Except Err (List Str × List Str)
  attrOf : Str → Except Err (AttrInfo V)
  /-- values of `objectClass` are class names -/
  className : V → Str

/-- the `for value in values` loop, schema.py:66-67 -/
def validateAll {V : Type} (a : AttrInfo V) : List V → Except Err Unit
  | [] => .ok ()
  | v :: vs => do a.validate v; validateAll a vs

/-- `SchemaValidator._validate_attribute`, schema.py:58-67 -/
def validateAttribute {V : Type} (s : SchemaEnv V) (name : Str) (values : List V) (write : Bool) : Except Err Unit := do
  let a ← s.attrOf name
  let _ ← a.obsolete
  let sv ← a.singleValue
  if sv && decide (values.length > 1) then .error .ldapValidation
  else
    let bad ← (if write then a.noUserMod else .ok false)
    if bad then .error .ldapValidation else validateAll a values

/-- the loop of `Validator.validate_object`, validation.py:22-23 -/
def validateItems {V : Type} (s : SchemaEnv V) (write : Bool) : List (Str × List V) → Except Err Unit
  | [] => .ok ()
  | kv :: l => do validateAttribute s kv.1 kv.2 write; validateItems s write l

/-- schema.py:34-37: required and allowed names of all classes -/
def classLists {V : Type} (s : SchemaEnv V) : List V → Except Err (List Str × List Str)
  | [] => .ok ([], [])
  | v :: vs => do
    let c ← s.classOf (s.className v)
    let r ← classLists s vs
    pure (c.1 ++ r.1, c.2 ++ r.2)

/-- `SchemaValidator.validate_object`, schema.py:20-56. The sets are lists here; the keys iterated are those of the underlying `dict`, distinct by construction, so that
removing each one from the required set amounts to subtracting them all. -/
def validateObject {V : Type} (lower : Str → Str) (s : SchemaEnv V) (obj : CIDict Str (List V)) (write : Bool) : Except Err Unit :=
  match obj.getItem lower (str "objectClass") with
  | .error _ => .error .ldapValidation
  | .ok classes =>
    match classLists s classes with
    | .error e => .error e
    | .ok (required, allowed) =>
      let keys := obj.items.map Prod.fst
      if required.any (fun a => !keys.contains a) then .error .ldapValidation
      else if keys.any (fun k => !required.contains k && !allowed.contains k) then .error .ldapValidation
      else validateItems s write obj.items

/-- `Validator.validate_modify`, validation.py:39-41, as inherited by `SchemaValidator`: a change without values is not looked at. -/
def validateModify {V : Type} (s : SchemaEnv V) : List (Str × List V) → Except Err Unit
  | [] => .ok ()
  | m :: ms =>
    if m.2 = [] then validateModify s ms
    else do validateAttribute s m.1 m.2 true; validateModify s ms

end Laurelin.Schema
