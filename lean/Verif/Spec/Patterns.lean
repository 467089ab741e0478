import Verif.Spec.Entries
import Verif.Model.ApiPatterns
/-!
Specification: creating entries in a directory (RFC 4511 4.7), and what `add_or_mod_add_if_exists`, `add_or_mod_replace_if_exists`, `add_if_not_exists` mean for it.
-/
namespace Laurelin.Spec.PatternsS
open Laurelin Codec Wire OverWireS DirectoryS

/-- a request to add an entry -/
def addOp (dn : Str) (attrs : List (Str × List Bytes)) : Op := .addRequest (utf8Enc dn) (attrs.map (fun a => ⟨utf8Enc a.1, a.2⟩))

/-- A new entry has the values given, and otherwise only attributes that the server adds on its own (`system`). -/
def Created (lower : Str → Str) (system : Str → Prop) (attrs : List (Str × List Bytes)) (e : Entry Bytes) : Prop :=
  (∀ a ∈ attrs, e (lower a.1) = a.2) ∧ ∀ x, (∀ a ∈ attrs, lower a.1 ≠ x) → ¬ system x → e x = []

/-- An add request that succeeds makes an entry where there was none, and changes no other. Results of reading a DN carry a form of this DN. -/
structure Creates {D : Type} (lower norm : Str → Str) (system : Str → Prop) (dir : Directory D) (at_ : D → Str → Option (Entry Bytes)) : Prop where
  add : ∀ d dn attrs d', (attrs.map (fun a => lower a.1)).Nodup → dir.updated d (addOp dn attrs) d' →
    at_ d (norm dn) = none ∧ (∃ e, at_ d' (norm dn) = some e ∧ Created lower system attrs e) ∧ ∀ x, x ≠ norm dn → at_ d' x = at_ d x
  named : ∀ d dn deref size time f attrs found, dir.finds d (readOp dn deref size time f attrs) found → ∀ p ∈ found, norm p.1 = norm dn

/-- each value is shown as text if it is UTF-8, and as its octets otherwise -/
def ShowsValues (lower : Str → Str) (e : Entry Bytes) (obj : AttrsDict Rfc4511.AVal) (attr : Str) : Prop :=
  Pairwise2 Shows (e (lower attr)) (AttrsDict.getAttr lower obj attr)

/-- The call raised and nothing has changed; or it returned an object, no other entry has changed, the entry was there and has changed as `ifThere` says, or was not and has been made with the attributes given;
and the object has (a form of) its DN and shows, of the entry as it is now, the attributes named, and others only as they are. -/
def PatternEffect {R D : Type} (lower norm : Str → Str) (system : Str → Prop) (at_ : D → Str → Option (Entry Bytes)) (d : D) (dn : Str) (attrs : List (Str × List Rfc4511.AVal))
    (ifThere : Entry Bytes → Entry Bytes → Prop) (named : List Str) (res : Except Err (Api.Ret R)) (d' : D) : Prop :=
  match res with
  | .error _ => ∀ x, at_ d' x = at_ d x
  | .ok ret => ∃ dn' obj e', ret = .object dn' obj ∧ norm dn' = norm dn ∧ at_ d' (norm dn) = some e' ∧ (∀ x, x ≠ norm dn → at_ d' x = at_ d x) ∧
      (match at_ d (norm dn) with
        | none => Created lower system (attrs.map (fun kv => (kv.1, kv.2.map (·.bytes)))) e'
        | some e => ifThere e e') ∧
      (∀ a ∈ named, ShowsValues lower e' obj a) ∧ ∀ a, AttrsDict.getAttr lower obj a ≠ [] → ShowsValues lower e' obj a

end Laurelin.Spec.PatternsS
