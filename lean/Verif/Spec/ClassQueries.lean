import Verif.Spec.ObjectSchema
/-!
Specification: what the descriptions of object classes answer.
-/
namespace Laurelin.Spec.ClassQueries
open Laurelin Rfc4512 Spec.AttrSchema Spec.ObjectSchema

/-- `cls` names a class, or nothing that is known -/
def Known (lower : Str → Str) (classes : List ObjectClass) (cls : Str) : Prop := (∃ c ∈ classes, Identifies lower c.oid c.names cls) ∨ UnknownName cls

/-- the class named `cls` requires the attribute -/
def IsRequired (lower : Str → Str) (types : List AttributeType) (classes : List ObjectClass) (cls name : Str) : Prop :=
  ∃ c ∈ classes, Identifies lower c.oid c.names cls ∧ Requires lower types classes c name

/-- the class named `cls` may have the attribute; `ext` are the OIDs of those that may have any -/
def IsAllowed (lower : Str → Str) (types : List AttributeType) (classes : List ObjectClass) (ext : List Str) (cls name : Str) : Prop :=
  ∃ c ∈ classes, Identifies lower c.oid c.names cls ∧ (c.oid ∈ ext ∨ Requires lower types classes c name ∨ Permits lower types classes c name)

/-- what netgroups have: the attributes of `nisNetgroup` and of `top` -/
def netgroupAttributes : List Str := [str "objectClass", str "cn", str "nisNetgroupTriple", str "memberNisNetgroup", str "description"]

end Laurelin.Spec.ClassQueries
