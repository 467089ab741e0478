import Verif.Spec.NetgroupSearch
/-!
Specification: what a change of a netgroup through its object means.
-/
namespace Laurelin.Spec.NgObject
open Laurelin Codec Netgroups Wire OverWireS DirectoryS ObjectS NgWire NgSearch

/-- The object is of the same entry as before. The call raised and no entry has changed; or the object's entry has the object class of netgroups, every member of the list stands for something, the entry has, for
each of the two attributes, the values that this change makes of what the members stand for, and nothing else has changed. -/
def ChangeMeans {D : Type} (lower norm : Str → Str) (m : Str → Bytes → Bytes → Bool) (at_ : D → Str → Option (Spec.Entry Bytes)) (how : Api.NgChange) (fld : Field) (members : List Member) (domain : Str)
    (d : D) (o : Api.Obj) (res : Except Err Api.Returned) (o' : Api.Obj) (d' : D) : Prop :=
  o'.dn = o.dn ∧
  match res with
  | .error _ => ∀ x, at_ d' x = at_ d x
  | .ok _ => ∃ dn stands, o.dn = some dn ∧ Ng.Entries fld domain members stands ∧
      Changed at_ d d' (norm dn) (fun e e' => IsNetgroup lower m e ∧
        (∀ a ∈ [tripleAttr, memberAttr], e' (lower a) = changed (m a) (e (lower a)) ((Ng.valuesOf a stands).map utf8Enc) how) ∧
        ∀ x, x ≠ lower tripleAttr → x ≠ lower memberAttr → e' x = e x)

end Laurelin.Spec.NgObject
