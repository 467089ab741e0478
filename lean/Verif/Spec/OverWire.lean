import Verif.Spec.Requests
import Verif.Spec.Server
import Verif.Spec.Controls
import Verif.Model.OverWire
/-!
Specification: a directory server at the other end of a connection, as far as one entry is concerned (RFC 4511 4.5, 4.6). It reads the octets of a request, whatever encoding they are, and answers with
messages of its own. It may refuse any request.
-/
namespace Laurelin.Spec.OverWireS
open Laurelin Codec Wire

/-- These operations come back, one message each with this ID and no controls, in any BER encoding and cut into any pieces (`recv` gives no empty piece). -/
def Answered (mid : Int) (ops : List Op) (pieces : List Bytes) : Prop :=
  ∃ bss : List Bytes, Pairwise2 (fun o b => Message.Valid ⟨mid, o, none⟩ ∧ Message.enc x690 ⟨mid, o, none⟩ b) ops bss ∧ (∀ c ∈ pieces, c ≠ []) ∧ pieces.flatten = bss.flatten

/-- a modify request for this DN -/
def modifyOp (dn : Str) (cs : List (Change Bytes)) : Op := .modifyRequest (utf8Enc dn) (cs.map (fun c => (modNumber c.op, ⟨utf8Enc c.attr, c.vals⟩)))

/-- a request to read these attributes of this DN -/
def readOp (dn : Str) (deref size time : Int) (f : Wire.Filter) (attrs : List Str) : Op := .searchRequest (utf8Enc dn) 0 deref size time false f (attrs.map utf8Enc)

/-- an entry of a search result: no attribute twice, each with all its values, and those listed that the entry has -/
structure Faithful (lower : Str → Str) (e : Entry Bytes) (attrs : List Str) (got : List (Str × List Bytes)) : Prop where
  distinct : (got.map (fun p => lower p.1)).Nodup
  sound : ∀ p ∈ got, p.2 = e (lower p.1)
  complete : ∀ a ∈ attrs, e (lower a) ≠ [] → ∃ p ∈ got, lower p.1 = lower a

/-- `entry s` are the values that the server has in state `s` for the entry with this DN; `m` is its equality of values. -/
structure Conforms {S : Type} (lower : Str → Str) (m : Str → Bytes → Bytes → Bool) (dn : Str) (entry : S → Entry Bytes) (peer : OverWire.Peer S) : Prop where
  /-- it makes all the changes and says so, or none -/
  modify : ∀ s bs mid cs ctrls, Message.Valid ⟨mid, modifyOp dn cs, ctrls⟩ → Message.enc x690 ⟨mid, modifyOp dn cs, ctrls⟩ bs →
    ∃ r, Answered mid [.modifyResponse r] (peer s bs).2 ∧
      ((r.code = 0 ∧ srvModify lower m (entry s) cs = .ok (entry (peer s bs).1)) ∨ (r.code ≠ 0 ∧ entry (peer s bs).1 = entry s))
  /-- it sends what it has found, no attribute twice in one entry, and a result other than a referral; with success (0) or noSuchObject (32) what it has sent is right -/
  read : ∀ s bs mid deref size time f attrs ctrls, Message.Valid ⟨mid, readOp dn deref size time f attrs, ctrls⟩ → Message.enc x690 ⟨mid, readOp dn deref size time f attrs, ctrls⟩ bs →
    entry (peer s bs).1 = entry s ∧
    ∃ (found : List (Str × List (Str × List Bytes))) (r : Result), r.code ≠ 10 ∧ r.referral = none ∧ (∀ p ∈ found, (p.2.map Prod.fst).Nodup) ∧
      Answered mid (found.map (fun p => .searchResEntry (utf8Enc p.1) (p.2.map (fun a => ⟨utf8Enc a.1, a.2⟩))) ++ [.searchResDone r]) (peer s bs).2 ∧
      (r.code = 0 ∨ r.code = 32 → ∀ p ∈ found, Faithful lower (entry s) attrs p.2)

/-- a server that in addition sends no attributes but those asked for (RFC 4511 4.5.1.8; here no subtypes of them either) -/
def Selective {S : Type} (lower : Str → Str) (dn : Str) (entry : S → Entry Bytes) (peer : OverWire.Peer S) : Prop :=
  ∀ s bs mid deref size time f attrs ctrls, Message.Valid ⟨mid, readOp dn deref size time f attrs, ctrls⟩ → Message.enc x690 ⟨mid, readOp dn deref size time f attrs, ctrls⟩ bs →
    entry (peer s bs).1 = entry s ∧
    ∃ (found : List (Str × List (Str × List Bytes))) (r : Result), r.code ≠ 10 ∧ r.referral = none ∧ (∀ p ∈ found, (p.2.map Prod.fst).Nodup) ∧
      Answered mid (found.map (fun p => .searchResEntry (utf8Enc p.1) (p.2.map (fun a => ⟨utf8Enc a.1, a.2⟩))) ++ [.searchResDone r]) (peer s bs).2 ∧
      (r.code = 0 ∨ r.code = 32 → ∀ p ∈ found, Faithful lower (entry s) attrs p.2 ∧ ∀ q ∈ p.2, ∃ a ∈ attrs, lower a = lower q.1)

/-! ## What the calls ask for, per attribute -/

/-- the values there were, then the new ones that are not there yet -/
def withAdded (m : Bytes → Bytes → Bool) (cur new : List Bytes) : List Bytes := cur ++ new.filter (fun v => !cur.any (fun x => m x v))

/-- without the values named, as far as they are there -/
def without (m : Bytes → Bytes → Bool) (cur del : List Bytes) : List Bytes := del.foldl (fun l v => dropFirst (fun x => m x v) l) cur

/-- the entry has `f` of its old values for the attributes named, and its old values for all others -/
def Becomes {A : Type} (lower : Str → Str) (e e' : Entry Bytes) (named : List (Str × A)) (f : Str → A → List Bytes → List Bytes) : Prop :=
  (∀ kv ∈ named, e' (lower kv.1) = f kv.1 kv.2 (e (lower kv.1))) ∧ ∀ x, (∀ kv ∈ named, lower kv.1 ≠ x) → e' x = e x

end Laurelin.Spec.OverWireS
