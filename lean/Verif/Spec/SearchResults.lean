import Verif.Spec.Requests
import Verif.Spec.Controls
import Verif.Model.Received
/-!
Specification: what a server sends for a search before the result, and what the caller gets of it (RFC 4511 4.5.2; response controls as the library's documentation describes them).
-/
namespace Laurelin.Spec.ResultsS
open Laurelin Codec

/-- an entry or a continuation reference, with response controls -/
inductive Piece where
  | entry (dn : Str) (attrs : List (Str × List Bytes)) (ctrls : Option (List Controls.Wire))
  | reference (uris : List Str) (ctrls : Option (List Controls.Wire))

def Piece.ctrls : Piece → Option (List Controls.Wire)
  | .entry _ _ cs => cs
  | .reference _ cs => cs

/-- the message of RFC 4511 -/
def Piece.message (id : Int) : Piece → Wire.Message
  | .entry dn attrs cs => Wire.message id (.searchResEntry (utf8Enc dn) (attrs.map (fun p => ⟨utf8Enc p.1, p.2⟩))) cs
  | .reference uris cs => Wire.message id (.searchResRef (uris.map utf8Enc)) cs

/-- The response controls `ctrls` come as attributes `gained`, one for each, in order: named and read as the control registered for the OID says, under names that are not `taken`. -/
def Gained {V R : Type} (reg : Controls.Reg V R) (taken : List Str) (ctrls : Option (List Controls.Wire)) (gained : List (Str × R)) : Prop :=
  Pairwise2 (fun w (p : Str × R) => ∃ c, reg.resp.get? w.oid = some c ∧ p.1 = c.responseAttr ∧ c.handle w.value = .ok p.2) (ctrls.getD []) gained ∧
  (gained.map Prod.fst).Nodup ∧ ∀ p ∈ gained, p.1 ∉ taken

/-- what the caller gets: the entry with its attributes in order (each named once) and values as text or octets; the URIs of a reference that is not fetched -/
inductive Piece.Gives {V R : Type} (env : Search.Env V R Received.Entry) : Piece → Search.Item Received.Entry R → Prop where
  | entry (dn : Str) (attrs : List (Str × List Bytes)) (ctrls : Option (List Controls.Wire)) (shown : PDict Str (List Rfc4511.AVal)) (gained : List (Str × R)) :
      (attrs.map Prod.fst).Nodup → Pairwise2 (fun (p : Str × List Bytes) q => q.1 = p.1 ∧ Pairwise2 Wire.Shows p.2 q.2) attrs shown →
      Gained env.reg env.objOwn ctrls gained → Gives env (.entry dn attrs ctrls) (.entry (dn, shown) gained)
  | reference (uris : List Str) (ctrls : Option (List Controls.Wire)) (gained : List (Str × R)) : env.fetchRefs = false →
      Gained env.reg env.refOwn ctrls gained → Gives env (.reference uris ctrls) (.ref uris gained)

end Laurelin.Spec.ResultsS
