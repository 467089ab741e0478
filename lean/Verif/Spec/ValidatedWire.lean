import Verif.Spec.ObjectSchema
import Verif.Model.ApiValidate
/-!
Specification: what a connection with the schema validator lets through. Values are texts here.
-/
namespace Laurelin.Spec.ValidatedS
open Laurelin Codec ObjectSchema Rfc4512 Spec.AttrSchema
open Laurelin.Rfc4511 (AVal)

section
variable (lower : Str → Str) (types : List AttributeType) (classes : List ObjectClass) (syntaxOk : Str → Str → Prop)

/-- the attributes have an `objectClass` and follow the schema, with the names spelled as the classes spell them; `write`: attributes that only the server may set are refused -/
def Conforms (attrs : List (Str × List Str)) (write : Bool) : Prop := ∃ oc ∈ attrs, lower oc.1 = lower (str "objectClass") ∧ Follows lower types classes syntaxOk (fun a k => a = k) oc.2 attrs write

/-- the attribute is described, and these values may be written -/
def Good (m : Str × List Str) : Prop := ∃ d ∈ types, Identifies lower d.oid d.names m.1 ∧ GoodAttr lower types syntaxOk d m.2 true

/-- The changes of a modification, with their values, are let through: each that has values is a good one — but nothing is looked at after the first one with values for a name that is not described. -/
inductive LetThrough : List (Str × List Str) → Prop where
  | none : LetThrough []
  | empty {a : Str} {l : List (Str × List Str)} : LetThrough l → LetThrough ((a, []) :: l)
  | good {m : Str × List Str} {l : List (Str × List Str)} : m.2 ≠ [] → Good lower types syntaxOk m → LetThrough l → LetThrough (m :: l)
  | unknown {m : Str × List Str} {l : List (Str × List Str)} : m.2 ≠ [] → UnknownName m.1 → (∀ d ∈ types, ¬ Identifies lower d.oid d.names m.1) → LetThrough (m :: l)

/-- the changes a `Mod` stands for -/
def modOf (m : ModOp × Str × Vals Str) : Mod AVal := ⟨m.1, m.2.1, match m.2.2 with | .deleteAll => .deleteAll | .list vs => .list (vs.map .text)⟩
def changeOf (m : ModOp × Str × Vals Str) : Str × List Str := (m.2.1, match m.2.2 with | .deleteAll => [] | .list vs => vs)

/-- The calls of the second list are those of the first that the validator lets through. Attributes of objects are named distinctly. -/
inductive Kept {V : Type} : List (Api.Call V) → List (Api.Call V) → Prop where
  | nil : Kept [] []
  | added {dn : Str} {attrs : List (Str × List Str)} {l k : List (Api.Call V)} : (attrs.map (fun p => lower p.1)).Nodup → Conforms lower types classes syntaxOk attrs true → Kept l k →
      Kept (.add dn (attrs.map fun p => (p.1, p.2.map .text)) :: l) (.add dn (attrs.map fun p => (p.1, p.2.map .text)) :: k)
  | notAdded {dn : Str} {attrs : List (Str × List Str)} {l k : List (Api.Call V)} : (attrs.map (fun p => lower p.1)).Nodup → ¬ Conforms lower types classes syntaxOk attrs true → Kept l k →
      Kept (.add dn (attrs.map fun p => (p.1, p.2.map .text)) :: l) k
  | modified {dn : Str} {mods : List (ModOp × Str × Vals Str)} {cur : Option (AttrsDict AVal)} {l k : List (Api.Call V)} : LetThrough lower types syntaxOk (mods.map changeOf) → Kept l k →
      Kept (.modify dn (mods.map modOf) cur :: l) (.modify dn (mods.map modOf) cur :: k)
  | notModified {dn : Str} {mods : List (ModOp × Str × Vals Str)} {cur : Option (AttrsDict AVal)} {l k : List (Api.Call V)} : ¬ LetThrough lower types syntaxOk (mods.map changeOf) → Kept l k →
      Kept (.modify dn (mods.map modOf) cur :: l) k
  | other {c : Api.Call V} {l k : List (Api.Call V)} : (∀ dn attrs, c ≠ .add dn attrs) → (∀ dn mods cur, c ≠ .modify dn mods cur) → Kept l k → Kept (c :: l) (c :: k)

end

/-- a syntax that is shipped takes the value -/
abbrev ShippedSyntax (oid v : Str) : Prop := ∃ q, BaseRules.getSyntaxRule (BaseRules.baseSyntaxes ++ BaseRules.netgroupSyntaxes) oid = .ok q ∧ q.validate v = .ok ()

/-- the guard has the schema that is shipped: its texts read in some order, first the attribute types, then the object classes -/
def Shipped (lower : Str → Str) (g : Api.Guard) : Prop :=
  ∃ ts cs r U depth, ts.Perm (BaseSchema.attributeTypes ++ BaseSchema.netgroupTypes) ∧ cs.Perm (BaseSchema.objectClasses ++ BaseSchema.netgroupClasses) ∧ 4 ≤ depth ∧
    AttrSchema.load lower Schema.Reg.empty ts = (r, .ok ()) ∧ g.env = AttrSchema.shippedEnv lower U depth r ∧
    Laurelin.ObjectSchema.loadClasses lower r Laurelin.ObjectSchema.Classes.empty cs = (g.classes, .ok ())

/-- what the validator remembers after objects were validated -/
def Remembers (g : Api.Guard) (m : Laurelin.ObjectSchema.Memo) : Prop :=
  ∃ earlier, m = Laurelin.ObjectSchema.validateObjects g.env g.classes (g.classes.start g.env.lower) earlier

end Laurelin.Spec.ValidatedS
