import Verif.Model.AttrSchema
/-!
Object classes read from specifications into their registry (laurelin/ldap/objectclass.py:15-121), the reads of `must` and `may` with what they remember (123-151), and
`SchemaValidator` on top of both registries (laurelin/ldap/schema.py:20-67, laurelin/ldap/validation.py:12-41).
-/
namespace Laurelin.ObjectSchema
open Laurelin Schema SchemaSpec BaseRules AttrSchema

/-- `_oid_object_classes`/`_name_object_classes` (objectclass.py:15-16). `ObjectClass` instances are numbered in the order of their creation; `table`: what each one's specification says. -/
structure Classes where
  table : List OCFields
  reg : Reg Nat

def Classes.empty : Classes := ⟨[], Reg.empty⟩

/-- `ObjectClass(spec).register()`, objectclass.py:111-121 -/
def Classes.register (lower : Str → Str) (c : Classes) (f : OCFields) : Classes × Except Err Unit :=
  match c.reg.register lower ⟨f.oid, f.names, c.table.length⟩ with
  | (r, x) => (⟨c.table ++ [f], r⟩, x)

/-- Reading and registering specifications one after the other, objectclass.py:81-121; `types`: the attribute types by then (OIDs in `MUST`/`MAY`, 45-58). -/
def loadClasses (lower : Str → Str) (types : Reg ATFields) (c : Classes) : List Str → Classes × Except Err Unit
  | [] => (c, .ok ())
  | s :: l =>
    match objectClass lower types s with
    | .error e => (c, .error e)
    | .ok f =>
      match c.register lower f with
      | (c, .error e) => (c, .error e)
      | (c, .ok ()) => loadClasses lower types c l

/-- the classes as the `must` property (`own` = `my_must`) or the `may` property sees them -/
def Classes.graph (lower : Str → Str) (c : Classes) (own : OCFields → List Str) : OCGraph where
  cls := fun i => match c.table[i]? with
    | some f => ⟨f.superclasses, own f⟩
    | none => ⟨[], []⟩
  resolve := fun s => match c.reg.find lower s with
    | .ok (.elem e) => .ok (some e.body)
    | .ok (.dflt _) => .ok none
    | .error e => .error e

/-- what the instances remember between reads: `_must` with `my_must`, `_may` with `my_may` (objectclass.py:124-151) -/
structure Memo where
  must : OCState
  may : OCState

def Classes.start (lower : Str → Str) (c : Classes) : Memo := ⟨(c.graph lower (·.must)).start, (c.graph lower (·.may)).start⟩

/-- `oc = get_object_class(oc_name)`, then `oc.must` and `oc.may`, schema.py:35-37. A `DefaultObjectClass` (objectclass.py:176-191) has neither. -/
def readClass (lower : Str → Str) (c : Classes) (depth : Nat) (m : Memo) (name : Str) : Memo × Except Err (List Str × List Str) :=
  match c.reg.find lower name with
  | .error e => (m, .error e)
  | .ok (.dflt _) => (m, .ok ([], []))
  | .ok (.elem e) =>
    match mustOf (c.graph lower (·.must)) depth m.must e.body with
    | (s, .error x) => (⟨s, m.may⟩, .error x)
    | (s, .ok must) =>
      match mustOf (c.graph lower (·.may)) depth m.may e.body with
      | (t, .error x) => (⟨s, t⟩, .error x)
      | (t, .ok may) => (⟨s, t⟩, .ok (must, may))

/-- the loop over the values of `objectClass`, schema.py:34-37; the sets are lists here -/
def readClasses (lower : Str → Str) (c : Classes) (depth : Nat) (m : Memo) : List Str → Memo × Except Err (List Str × List Str)
  | [] => (m, .ok ([], []))
  | v :: vs =>
    match readClass lower c depth m v with
    | (m, .error e) => (m, .error e)
    | (m, .ok p) =>
      match readClasses lower c depth m vs with
      | (m, .error e) => (m, .error e)
      | (m, .ok q) => (m, .ok (p.1 ++ q.1, p.2 ++ q.2))

/-- What `_validate_attribute` and `AttributeType.validate` read of a type (schema.py:58-67, attributetype.py:169-180). The flags may come from supertypes; a `DefaultAttributeType` at the
top of the line has them all false (attributetype.py:257-260). -1 stands for no length limit. -/
def infoOf (env : Env) (t : ATFields) : AttrInfo Str where
  singleValue := readField env (·.singleValue) (some false) env.depth t
  noUserMod := readField env (·.noUserMod) (some false) env.depth t
  obsolete := readField env (·.obsolete) (some false) env.depth t
  syntaxLength := (readField env (·.syntaxLength) none env.depth t).map (fun n => match n with | some k => (k : Int) | none => -1)
  syn := fun v => match syntaxOf env t with
    | .error e => .error e
    | .ok r => r.validate v
  length := List.length

/-- `DefaultAttributeType`, attributetype.py:242-272: it has no `syntax_length`, and its `__getattr__` (162-167) raises AttributeError -/
def infoDefault : AttrInfo Str := ⟨.ok false, .ok false, .ok false, .error .attributeError, fun _ => .ok (), List.length⟩

/-- `get_attribute_type(attr_name)`, schema.py:59, attributetype.py:20-33 -/
def attrOf (env : Env) (name : Str) : Except Err (AttrInfo Str) :=
  match env.types.find env.lower name with
  | .error e => .error e
  | .ok (.dflt _) => .ok infoDefault
  | .ok (.elem e) => .ok (infoOf env e.body)

/-- the attribute side of the schema, for `validateItems` and `validateModify` -/
def attrEnv (env : Env) : SchemaEnv Str := ⟨fun _ => .ok ([], []), attrOf env, id⟩

/-- `SchemaValidator().validate_object(obj, write)`, schema.py:20-56. As in `Schema.validateObject` the keys are distinct, so that removing them one by one from the required set
amounts to subtracting them all. -/
def validateObject (env : Env) (c : Classes) (m : Memo) (obj : CIDict Str (List Str)) (write : Bool) : Memo × Except Err Unit :=
  match obj.getItem env.lower (str "objectClass") with
  | .error _ => (m, .error .ldapValidation)
  | .ok classes =>
    match readClasses env.lower c env.depth m classes with
    | (m, .error e) => (m, .error e)
    | (m, .ok (required, allowed)) =>
      let keys := obj.items.map Prod.fst
      (m, if required.any (fun a => !keys.contains a) then .error .ldapValidation
        else if keys.any (fun k => !required.contains k && !allowed.contains k) then .error .ldapValidation
        else validateItems (attrEnv env) write obj.items)

/-- several calls one after the other -/
def validateObjects (env : Env) (c : Classes) (m : Memo) : List (CIDict Str (List Str) × Bool) → Memo
  | [] => m
  | p :: l => validateObjects env c (validateObject env c m p.1 p.2).1 l

end Laurelin.ObjectSchema
