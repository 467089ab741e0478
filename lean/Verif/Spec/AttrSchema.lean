import Verif.Spec.Rfc4512
/-!
A schema as a set of descriptions (RFC 4512 4.1): what identifies a description, and what an attribute type takes from its supertypes (2.5.1: a property that is
not stated is that of the nearest supertype that states it).
-/
namespace Laurelin.Spec.AttrSchema
open Laurelin Rfc4512

/-- `x` is the OID, or one of the names in any casing (names do not begin with a digit). -/
def Identifies (lower : Str → Str) (oid : Str) (names : List Str) (x : Str) : Prop :=
  x = oid ∨ (∃ c t, x = c :: t ∧ isDigit c = false) ∧ ∃ n ∈ names, lower x = lower n

/-- no two descriptions share an OID, or a name up to casing -/
def Distinct (lower : Str → Str) (oids : List Str) (names : List (List Str)) : Prop :=
  oids.Nodup ∧ (names.flatten.map lower).Nodup

/-- What there is to find for a property. -/
inductive Answer (X : Type) where
  | stated (x : X)
  /-- the line of supertypes ends without it -/
  | nothing
  /-- the line of supertypes leaves the schema: a name nobody defines -/
  | undefinedType
  deriving DecidableEq

/-- what to do in each case -/
def Answer.elim {X Y : Type} (stated : X → Y) (nothing undefinedType : Y) : Answer X → Y
  | .stated x => stated x
  | .nothing => nothing
  | .undefinedType => undefinedType

/-- `Effective lower types own n d x`: `x` is what `d` has for a property, `own` being what descriptions state themselves, `n` counting the types visited. -/
inductive Effective {X : Type} (lower : Str → Str) (types : List AttributeType) (own : AttributeType → Option X) : Nat → AttributeType → Answer X → Prop
  | stated (d : AttributeType) (x : X) : own d = some x → Effective lower types own 1 d (.stated x)
  | nothing (d : AttributeType) : own d = none → d.sup = none → Effective lower types own 1 d .nothing
  | undefinedType (d : AttributeType) (s : Str) : own d = none → d.sup = some s → (∃ c t, s = c :: t ∧ isDigit c = false) →
      (∀ e ∈ types, ¬ Identifies lower e.oid e.names s) → Effective lower types own 1 d .undefinedType
  | inherited (d e : AttributeType) (s : Str) (n : Nat) (x : Answer X) : own d = none → d.sup = some s → e ∈ types → Identifies lower e.oid e.names s →
      Effective lower types own n e x → Effective lower types own (n + 1) d x

end Laurelin.Spec.AttrSchema
