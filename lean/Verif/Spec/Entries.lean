import Verif.Spec.Directory
/-!
Specification: a directory whose contents are entries by DN, as far as modify requests and reading one entry are concerned (RFC 4511 4.6, 4.5.2), and what `add_attrs`, `delete_attrs`, `replace_attrs` of a
connection mean for it.
-/
namespace Laurelin.Spec.EntriesS
open Laurelin Codec Wire OverWireS DirectoryS

/-- `at_ d` are the entries, by normalized DN. A modify request that succeeds changes the entry it names by all its changes, and no other. Reading a DN gives at most its entry, with all values of each
attribute sent and each attribute listed that the entry has. -/
structure Entries {D : Type} (lower : Str → Str) (m : Str → Bytes → Bytes → Bool) (norm : Str → Str) (dir : Directory D) (at_ : D → Str → Option (Entry Bytes)) : Prop where
  modify : ∀ d dn cs d', dir.updated d (modifyOp dn cs) d' →
    ∃ e e', at_ d (norm dn) = some e ∧ srvModify lower m e cs = .ok e' ∧ at_ d' (norm dn) = some e' ∧ ∀ x, x ≠ norm dn → at_ d' x = at_ d x
  read : ∀ d dn deref size time f attrs found, dir.finds d (readOp dn deref size time f attrs) found → ∀ p ∈ found, ∃ e, at_ d (norm dn) = some e ∧ Faithful lower e attrs p.2

/-- The call raised and nothing has changed, or it returned an empty response and the entry has, for the attributes named, `f` of the values it had; nothing else has changed. (A call that had nothing to
send returns also if there is no entry.) -/
def AttrsEffect {A R D : Type} (lower norm : Str → Str) (at_ : D → Str → Option (Entry Bytes)) (d : D) (dn : Str) (named : List (Str × A)) (f : Str → A → List Bytes → List Bytes)
    (res : Except Err (Api.Ret R)) (d' : D) : Prop :=
  match res with
  | .error _ => d' = d
  | .ok ret => ret = .done ∧ (∀ x, x ≠ norm dn → at_ d' x = at_ d x) ∧
      match at_ d (norm dn) with
      | none => d' = d
      | some e => ∃ e', at_ d' (norm dn) = some e' ∧ Becomes lower e e' named f

/-- all values if none are given, else those given as far as they are there -/
def deleting (m : Bytes → Bytes → Bool) (vs : Vals Rfc4511.AVal) (cur : List Bytes) : List Bytes :=
  match vs with
  | .deleteAll => []
  | .list [] => []
  | .list l => without m cur (l.map (·.bytes))

/-- the values given, none for DELETE_ALL -/
def replacing (vs : Vals Rfc4511.AVal) : List Bytes :=
  match vs with
  | .deleteAll => []
  | .list l => l.map (·.bytes)

end Laurelin.Spec.EntriesS
