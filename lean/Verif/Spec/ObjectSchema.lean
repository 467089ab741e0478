import Verif.Spec.AttrSchema
/-!
What object class and attribute type descriptions demand of an entry (RFC 4512 2.4, 2.5): independent of any registry.
-/
namespace Laurelin.Spec.ObjectSchema
open Laurelin Rfc4512 Spec.AttrSchema

/-- `k` is the class `c` or one of its direct or indirect superclasses. -/
inductive AtOrAbove (lower : Str → Str) (classes : List ObjectClass) : ObjectClass → ObjectClass → Prop
  | self (c : ObjectClass) : AtOrAbove lower classes c c
  | above (c d k : ObjectClass) (s : Str) : s ∈ c.sups → d ∈ classes → Identifies lower d.oid d.names s → AtOrAbove lower classes d k → AtOrAbove lower classes c k

/-- An attribute list mentions `a`: by that very name, or by the OID of an attribute type one of whose names `a` is. -/
def Mentions (types : List AttributeType) (l : List Str) (a : Str) : Prop :=
  (a ∈ l ∧ ∃ c t, a = c :: t ∧ isDigit c = false) ∨ ∃ d ∈ types, d.oid ∈ l ∧ a ∈ d.names

/-- entries of class `c` must have attribute `a` -/
def Requires (lower : Str → Str) (types : List AttributeType) (classes : List ObjectClass) (c : ObjectClass) (a : Str) : Prop :=
  ∃ k, AtOrAbove lower classes c k ∧ Mentions types k.must a

/-- entries of class `c` may have attribute `a` -/
def Permits (lower : Str → Str) (types : List AttributeType) (classes : List ObjectClass) (c : ObjectClass) (a : Str) : Prop :=
  ∃ k, AtOrAbove lower classes c k ∧ Mentions types k.may a

/-- `d` or a type in its line of supertypes carries the flag -/
def Marked (lower : Str → Str) (types : List AttributeType) (flag : AttributeType → Bool) (d : AttributeType) : Prop :=
  ∃ n, Effective lower types (fun e => if flag e then some () else none) n d (.stated ())

/-- Values `vs` may be stored in an attribute of type `d`. `syntaxOk oid v`: `v` is of the syntax. -/
structure GoodAttr (lower : Str → Str) (types : List AttributeType) (syntaxOk : Str → Str → Prop) (d : AttributeType) (vs : List Str) (write : Bool) : Prop where
  single : Marked lower types (·.singleValue) d → vs.length ≤ 1
  user : write = true → ¬ Marked lower types (·.noUserMod) d
  values : ∀ v ∈ vs, ∃ n oid limit, Effective lower types (·.syntaxLen) n d (.stated (oid, limit)) ∧ (∀ m, limit = some m → v.length ≤ m) ∧ syntaxOk oid v

/-- an identifier that nothing in the schema has: a name, not an OID -/
def UnknownName (x : Str) : Prop := ∃ c t, x = c :: t ∧ isDigit c = false

/-- An entry with attributes `entry` and classes `ocs` follows the schema; names of attributes are compared by `same`. -/
structure Follows (lower : Str → Str) (types : List AttributeType) (classes : List ObjectClass) (syntaxOk : Str → Str → Prop) (same : Str → Str → Prop)
    (ocs : List Str) (entry : List (Str × List Str)) (write : Bool) : Prop where
  known : ∀ v ∈ ocs, (∃ c ∈ classes, Identifies lower c.oid c.names v) ∨ UnknownName v
  required : ∀ v ∈ ocs, ∀ c ∈ classes, Identifies lower c.oid c.names v → ∀ a, Requires lower types classes c a → ∃ k ∈ entry.map Prod.fst, same a k
  permitted : ∀ k ∈ entry.map Prod.fst, ∃ v ∈ ocs, ∃ c ∈ classes, Identifies lower c.oid c.names v ∧
    ∃ a, same a k ∧ (Requires lower types classes c a ∨ Permits lower types classes c a)
  values : ∀ kv ∈ entry, (∃ d ∈ types, Identifies lower d.oid d.names kv.1 ∧ GoodAttr lower types syntaxOk d kv.2 write) ∨
    ((∀ d ∈ types, ¬ Identifies lower d.oid d.names kv.1) ∧ UnknownName kv.1 ∧ kv.2 = [])

/-- The schema is in order: no shared OIDs or names; superclasses are described or unknown names and never circular, lines of supertypes end, all within `depth` steps. -/
structure InOrder (lower : Str → Str) (types : List AttributeType) (classes : List ObjectClass) (depth : Nat) : Prop where
  distinct : Distinct lower (classes.map (·.oid)) (classes.map (·.names))
  supers : ∀ c ∈ classes, ∀ s ∈ c.sups, (∃ d ∈ classes, Identifies lower d.oid d.names s) ∨ UnknownName s
  ranked : ∃ rank : ObjectClass → Nat, (∀ c ∈ classes, rank c < depth) ∧
    ∀ c ∈ classes, ∀ d ∈ classes, ∀ s ∈ c.sups, Identifies lower d.oid d.names s → rank d < rank c
  lines : ∀ d ∈ types, ∃ n, n ≤ depth ∧ ∃ x, Effective lower types (fun _ => (none : Option Unit)) n d x

end Laurelin.Spec.ObjectSchema
