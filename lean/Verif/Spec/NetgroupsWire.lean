import Verif.Spec.ObjectLife
import Verif.Spec.Netgroups
import Verif.Model.ApiNetgroups
/-!
Specification: netgroups as entries of a directory; what their methods mean for it.
-/
namespace Laurelin.Spec.NgWire
open Laurelin Codec Netgroups Wire OverWireS DirectoryS ObjectS

/-! ## Changes -/

/-- the values that an attribute has after a change with these values for it (none: the attribute is not named) -/
def changed (m : Bytes → Bytes → Bool) (cur : List Bytes) (new : List Bytes) : Api.NgChange → List Bytes
  | .add => withAdded m cur new
  | .delete => without m cur new
  | .replace => if new = [] then cur else new

/-- The call raised and nothing has changed; or every member of the list stands for something, the entry (if there is one) has, for each of the two attributes, the values that this change makes of what the members
stand for, and nothing else has changed. -/
def ChangeMeans {R D : Type} (lower norm : Str → Str) (m : Str → Bytes → Bytes → Bool) (at_ : D → Str → Option (Spec.Entry Bytes)) (how : Api.NgChange) (fld : Field) (dn : Str) (members : List Member) (domain : Str)
    (d : D) (res : Except Err (Api.Ret R)) (d' : D) : Prop :=
  match res with
  | .error _ => d' = d
  | .ok ret => ret = .done ∧ ∃ stands, Ng.Entries fld domain members stands ∧ (∀ x, x ≠ norm dn → at_ d' x = at_ d x) ∧
      match at_ d (norm dn) with
      | none => d' = d
      | some e => ∃ e', at_ d' (norm dn) = some e' ∧
          (∀ a ∈ [tripleAttr, memberAttr], e' (lower a) = changed (m a) (e (lower a)) ((Ng.valuesOf a stands).map utf8Enc) how) ∧
          ∀ x, x ≠ lower tripleAttr → x ≠ lower memberAttr → e' x = e x

/-! ## Members -/

/-- the search that looks a name up below the object `o` with DN `base` -/
inductive LookedUp {V : Type} (o : Api.Obj) (base cn : Str) (attrs : List Str) : SearchArgs V → Prop
  | one (child : Str) : o.scope = .one → Child o base cn child → LookedUp o base cn attrs { base := child, scope := .base, attrs := some attrs, limit := 2 }
  | sub (full : Str) : o.scope = .sub → Rdn o cn full →
      LookedUp o base cn attrs { base := base, scope := .sub, filter := some (str "(" ++ full ++ str ")"), fsyntax := some .standard, attrs := some attrs, limit := 2 }

/-- looking the name up finds this entry, and no other -/
def Group {V R D : Type} (norm : Str → Str) (dir : Directory D) (at_ : D → Str → Option (Spec.Entry Bytes)) (conn : SearchConn V R) (d : D) (o : Api.Obj) (attrs : List Str) (cn : Str) (e : Spec.Entry Bytes) : Prop :=
  ∃ (base : Str) (a : SearchArgs V) (op : Op) (p : Found), o.dn = some base ∧ LookedUp o base cn attrs a ∧ SearchFor conn a op ∧ dir.finds d op [p] ∧ at_ d (norm p.1) = some e

section
variable (lower : Str → Str) (group : Str → Spec.Entry Bytes → Prop)

/-- the names in the triples of an entry, in order -/
def Direct (fld : Field) (e : Spec.Entry Bytes) (names : List Str) : Prop := ∃ ts, e (lower tripleAttr) = ts.map utf8Enc ∧ Ng.FieldsOf fld ts names

mutual
/-- the names in the triples of the group, then those of each of its member groups, in order -/
inductive Expands (fld : Field) : Str → List Str → Prop
  | mk (cn : Str) (e : Spec.Entry Bytes) (names more : List Str) (ms : List Str) : group cn e → Direct lower fld e names → e (lower memberAttr) = ms.map utf8Enc → ExpandsAll fld ms more →
      Expands fld cn (names ++ more)
/-- of these groups, one after the other -/
inductive ExpandsAll (fld : Field) : List Str → List Str → Prop
  | nil : ExpandsAll fld [] []
  | cons (m : Str) (ms : List Str) (l l' : List Str) : Expands fld m l → ExpandsAll fld ms l' → ExpandsAll fld (m :: ms) (l ++ l')
end

/-- `m` is a member group of `g` -/
def MemberOf (m g : Str) : Prop := ∃ e, group g e ∧ utf8Enc m ∈ e (lower memberAttr)

/-- `k` is `g` or reached from it along member groups -/
inductive Reach : Str → Str → Prop
  | refl (g : Str) : Reach g g
  | step (g m k : Str) : MemberOf lower group m g → Reach m k → Reach g k

/-- a triple of the group has this name -/
def NamedBy (fld : Field) (g x : Str) : Prop := ∃ e t h u d, group g e ∧ utf8Enc t ∈ e (lower tripleAttr) ∧ Ng.TripleLine t h u d ∧ Ng.fieldOf fld h u = x

end
end Laurelin.Spec.NgWire
