import Verif.Spec.NetgroupsWire
/-!
Specification: a directory that finds only entries for which the filter is true (RFC 4511 4.5.1.7), and netgroups among them.
-/
namespace Laurelin.Spec.NgSearch
open Laurelin Codec Wire OverWireS DirectoryS

/-- `holds e f`: the filter is true of the entry. Of a conjunction, if it is of every part; of an equality, if the entry has a value that matches. What is found is an entry for which the filter is true. -/
structure Matching {D : Type} (lower : Str → Str) (m : Str → Bytes → Bytes → Bool) (norm : Str → Str) (dir : Directory D) (at_ : D → Str → Option (Spec.Entry Bytes)) (holds : Spec.Entry Bytes → Wire.Filter → Prop) : Prop where
  and : ∀ e l, holds e (.and l) → ∀ f ∈ l, holds e f
  equality : ∀ e a v, holds e (.equalityMatch (utf8Enc a) v) → ∃ x ∈ e (lower a), m a x v = true
  found : ∀ d base scope deref size time f attrs found, dir.finds d (.searchRequest base scope deref size time false f attrs) found → ∀ p ∈ found, ∃ e, at_ d (norm p.1) = some e ∧ holds e f

/-- the entry has the object class of netgroups -/
def IsNetgroup (lower : Str → Str) (m : Str → Bytes → Bytes → Bool) (e : Spec.Entry Bytes) : Prop := ∃ x ∈ e (lower (str "objectClass")), m (str "objectClass") x (utf8Enc (str "nisNetgroup")) = true

/-- the filter that is meant: the object class, and each of the given ones -/
def groupsAnd (fs : List Laurelin.Filter) : Laurelin.Filter := .and (.equality (str "objectClass") (str "nisNetgroup") :: fs)

/-- a text that is any number of RFC 4515 filters, one after the other -/
def Filters (s : Str) (fs : List Laurelin.Filter) : Prop := Std .many s fs

end Laurelin.Spec.NgSearch
